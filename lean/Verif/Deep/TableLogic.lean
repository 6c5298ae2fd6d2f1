import Verif.Deep.Tables

/-!
# The buckets of tables of objects of any depth
-/

namespace Bdlib.Deep
open Bdlib Bdlib.Spec Bdlib.Rca Bdlib.Hash

variable {p : Params} {i j n : Nat} {I : Mem p n → Envs n → Prop} {w : Tabs} {s : Mem p n} {V V' : All} {α β : Type} {c : Shelf i j n}

/-- The key type: objects of depth `i`, compared by what they hold. -/
def keys (p : Params) (c : Shelf i j n) (V : All) : Types Nat Nat where
  eq a b := decide (V ⟨i, a⟩ = V ⟨i, b⟩)
  hash a := hashOf p (V ⟨i, a⟩)
  dflt := 0
  grow := c.grow

theorem keys_laws (p : Params) (c : Shelf i j n) (V : All) (ok : Nat → Prop) : Hash.Laws (keys p c V) ok where
  refl a _ := by simp [keys]
  symm a b _ _ h := by simp only [keys, decide_eq_true_eq] at *; exact h.symm
  trans a b d _ _ _ h1 h2 := by simp only [keys, decide_eq_true_eq] at *; exact h1.trans h2
  hash a b _ _ h := by simp only [keys, decide_eq_true_eq] at *; rw [h]

theorem goes_scan (hI : Acts p I) {k : Nat} (hk : Known (V ⟨i, k⟩)) : ∀ (l : List (Nat × Nat)) {s : Mem p n},
    Stands I s V → (∀ e ∈ l, Known (V ⟨i, e.1⟩)) →
    Goes I (scanD p c k l) s (fun r V' => r = l.find? (fun e => (keys p c V).eq e.1 k) ∧ V' = V)
  | [], s, hr, _ => Goes.pure hr ⟨rfl, rfl⟩
  | e :: l, s, hr, h => by
    unfold scanD
    refine Goes.bind (goes_eq hI c.key hr hk (h e (List.mem_cons_self ..))) fun a s1 V1 hr1 ha => ?_
    obtain ⟨ha, hV⟩ := ha
    replace hV := hV.symm
    subst hV
    have he : (keys p c V).eq e.1 k = a := by
      unfold keys; dsimp only
      rw [Bool.eq_iff_iff, decide_eq_true_eq, ha]
      exact ⟨Eq.symm, Eq.symm⟩
    rw [List.find?_cons, he]
    cases a with
    | true => exact Goes.pure hr1 ⟨rfl, rfl⟩
    | false => exact goes_scan hI hk l hr1 fun q hq => h q (List.mem_cons_of_mem _ hq)

theorem goes_bucket (hI : Acts p I) (hr : Stands I s V) {k : Nat} (hk : Known (V ⟨i, k⟩)) (t : UMap Nat Nat) :
    Goes I (bucketD p c t k) s (fun x V' => x = (keys p c V).hash k % t.n ∧ V' = V) := by
  unfold bucketD
  refine Goes.bind (goes_hash hI c.key hr hk) fun h s1 V1 hr1 e => ?_
  obtain ⟨e, rfl⟩ := e
  exact Goes.pure hr1 ⟨by rw [e]; rfl, rfl⟩

/-! ## One table -/

/-- Table `t` has the entries `f`. -/
structure TabOk (p : Params) (c : Shelf i j n) (V : All) (t : UMap Nat Nat) (f : Slot (Ty i) → Option (Nat × Nat)) : Prop where
  wf : Hash.WF (keys p c V) (fun a => Known (V ⟨i, a⟩)) t
  rep : ∀ k e, f k = some e ↔ e ∈ t.entries ∧ V ⟨i, e.1⟩ = k
  live : ∀ e ∈ t.entries, V ⟨j, e.2⟩ ≠ .dead

variable {t : UMap Nat Nat} {f : Slot (Ty i) → Option (Nat × Nat)}

theorem TabOk.bound (h : TabOk p c V t f) {e : Nat × Nat} (he : e ∈ t.entries) : f (V ⟨i, e.1⟩) = some e := (h.rep _ e).2 ⟨he, rfl⟩

theorem TabOk.key (h : TabOk p c V t f) {k : Slot (Ty i)} {a b : Nat} (hk : f k = some (a, b)) : V ⟨i, a⟩ = k := ((h.rep k _).1 hk).2
theorem TabOk.known (h : TabOk p c V t f) {k : Slot (Ty i)} {a b : Nat} (hk : f k = some (a, b)) : Known k := by
  obtain ⟨h1, h2⟩ := (h.rep k _).1 hk
  rw [← h2]; exact entries_ok h.wf h1
theorem TabOk.value (h : TabOk p c V t f) {k : Slot (Ty i)} {a b : Nat} (hk : f k = some (a, b)) : V ⟨j, b⟩ ≠ .dead :=
  h.live _ ((h.rep k _).1 hk).1

/-- Objects that are not in the table do not matter, nor do the values. -/
theorem TabOk.frame (h : TabOk p c V t f) (hf : ∀ k a b, f k = some (a, b) → V' ⟨i, a⟩ = V ⟨i, a⟩ ∧ V' ⟨j, b⟩ ≠ .dead) :
    TabOk p c V' t f := by
  have hb : ∀ x, ∀ e ∈ t.bkt x, e ∈ t.entries := fun x e hp => by rw [mem_entries h.wf, h.wf.place x e hp]; exact hp
  have he : ∀ e ∈ t.entries, V' ⟨i, e.1⟩ = V ⟨i, e.1⟩ := fun e hp => (hf _ _ _ (h.bound hp)).1
  refine ⟨⟨h.wf.pos, fun x e hp => ?_, fun x => ?_, fun x e hp => ?_, h.wf.count⟩, fun k e => ?_, fun e hp => (hf _ _ _ (h.bound hp)).2⟩
  · have := h.wf.place x e hp
    unfold keys at this ⊢
    dsimp only at this ⊢
    rw [he e (hb x e hp)]; exact this
  · refine (h.wf.once x).imp_of_mem fun {p q} hp hq hpq => ?_
    unfold keys at hpq ⊢
    dsimp only at hpq ⊢
    rw [he p (hb x p hp), he q (hb x q hq)]; exact hpq
  · show Known (V' ⟨i, e.1⟩)
    rw [he e (hb x e hp)]; exact h.wf.good x e hp
  · rw [h.rep k e]
    constructor
    · rintro ⟨h1, h2⟩; exact ⟨h1, by rw [he e h1, h2]⟩
    · rintro ⟨h1, h2⟩; exact ⟨h1, by rw [← he e h1, h2]⟩

theorem TabOk.empty {r : Nat} : TabOk p c V (UMap.empty r) fun _ => none where
  wf := wf_empty r
  rep k e := by rw [entries_empty]; simp
  live := by rw [entries_empty]; nofun

theorem entries_clear (t : UMap Nat Nat) : t.clear.entries = [] := by simp [UMap.clear, UMap.entries]

theorem TabOk.clear (h : TabOk p c V t f) : TabOk p c V' t.clear fun _ => none where
  wf := ⟨h.wf.pos, nofun, fun _ => List.Pairwise.nil, nofun, by rw [entries_clear]; rfl⟩
  rep k e := by rw [entries_clear]; simp
  live := by rw [entries_clear]; nofun

/-- Looking for a key. -/
theorem TabOk.find (h : TabOk p c V t f) {k : Nat} (hk : Known (V ⟨i, k⟩)) : t.find (keys p c V) k = f (V ⟨i, k⟩) := by
  cases hf : f (V ⟨i, k⟩) with
  | some e =>
    obtain ⟨h1, h2⟩ := (h.rep _ e).1 hf
    refine (find_some (keys_laws ..) h.wf hk).2 ⟨h1, ?_⟩
    unfold keys; dsimp only; rw [h2]; simp
  | none =>
    refine (find_none (keys_laws ..) h.wf hk).2 fun e hp => ?_
    have h1 := h.bound hp
    unfold keys; dsimp only
    refine decide_eq_false fun e => ?_
    rw [e, hf] at h1; cases h1

theorem TabOk.push (h : TabOk p c V t f) {k : Slot (Ty i)} {a b : Nat} (hK : Known k) (ha : V ⟨i, a⟩ = k) (hb : V ⟨j, b⟩ ≠ .dead) (hk : f k = none) :
    TabOk p c V (t.push (keys p c V) (a, b)) fun x => if x = k then some (a, b) else f x := by
  have hKa : Known (V ⟨i, a⟩) := by rw [ha]; exact hK
  have hn := (find_none (keys_laws ..) h.wf hKa).1 (by rw [h.find hKa, ha, hk])
  obtain ⟨h1, h2⟩ := wf_push (keys_laws ..) h.wf (p := (a, b)) hKa hn
  refine ⟨h1, fun x e => ?_, fun e hp => ?_⟩
  · rw [h2.mem_iff, List.mem_cons]
    by_cases hx : x = k
    · subst hx
      rw [if_pos rfl]
      constructor
      · intro e; injection e with e; subst e; exact ⟨Or.inl rfl, ha⟩
      · rintro ⟨e | h3, h4⟩
        · rw [e]
        · rw [(h.rep x e).2 ⟨h3, h4⟩] at hk; cases hk
    · rw [if_neg hx, h.rep x e]
      constructor
      · rintro ⟨h3, h4⟩; exact ⟨Or.inr h3, h4⟩
      · rintro ⟨e | h3, h4⟩
        · subst e; rw [ha] at h4; exact absurd h4.symm hx
        · exact ⟨h3, h4⟩
  · rcases List.mem_cons.1 (h2.mem_iff.1 hp) with rfl | hp
    · exact hb
    · exact h.live e hp

theorem TabOk.rehash (h : TabOk p c V t f) (r : Nat) : TabOk p c V (t.rehash (keys p c V) r) f := by
  obtain ⟨h1, h2⟩ := wf_rehash (keys_laws ..) h.wf r
  exact ⟨h1, fun k e => by rw [h2.mem_iff, h.rep], fun e hp => h.live e (h2.mem_iff.1 hp)⟩

theorem eraseP_find {q : Nat × Nat → Bool} {e : Nat × Nat} : ∀ {l : List (Nat × Nat)}, l.find? q = some e →
    l.eraseP (fun x => decide (x = e)) = l.eraseP q
  | [], h => rfl
  | a :: l, h => by
    rw [List.find?_cons] at h
    rw [List.eraseP_cons, List.eraseP_cons]
    cases ha : q a with
    | true => rw [ha] at h; injection h with h; subst h; simp
    | false =>
      rw [ha] at h
      have hpq : q e = true := List.find?_some h
      have hne : a ≠ e := fun e => by rw [e, hpq] at ha; cases ha
      rw [decide_eq_false hne]
      simp only [cond_false]
      rw [eraseP_find h]

/-- An entry goes. -/
theorem TabOk.erase (h : TabOk p c V t f) {k : Nat} (hk : Known (V ⟨i, k⟩)) {e : Nat × Nat} (hf : f (V ⟨i, k⟩) = some e) :
    TabOk p c V (UMap.mk t.n (setFn t.bkt ((keys p c V).hash k % t.n)
      ((t.bkt ((keys p c V).hash k % t.n)).eraseP fun x => decide (x = e))) (t.count - 1)) fun x => if x = V ⟨i, k⟩ then none else f x := by
  have hfind := (h.find hk).trans hf
  have he := erase_some (keys_laws ..) h.wf hk hfind
  have heq : (t.erase (keys p c V) k).2 = UMap.mk t.n (setFn t.bkt ((keys p c V).hash k % t.n)
      ((t.bkt ((keys p c V).hash k % t.n)).eraseP fun x => decide (x = e))) (t.count - 1) := by
    unfold UMap.erase
    rw [hfind]
    rw [eraseP_find (q := fun q => (keys p c V).eq q.1 k)]
    exact hfind
  rw [heq] at he
  obtain ⟨h1, h2⟩ := he
  have hmem := fun q => h2.mem_iff (a := q)
  obtain ⟨hpm, hpk⟩ := (h.rep _ e).1 hf
  have honce : ∀ q ∈ (UMap.mk t.n (setFn t.bkt ((keys p c V).hash k % t.n)
      ((t.bkt ((keys p c V).hash k % t.n)).eraseP fun x => decide (x = e))) (t.count - 1)).entries, V ⟨i, e.1⟩ ≠ V ⟨i, q.1⟩ := by
    have hpw : (e :: (UMap.mk t.n (setFn t.bkt ((keys p c V).hash k % t.n)
      ((t.bkt ((keys p c V).hash k % t.n)).eraseP fun x => decide (x = e))) (t.count - 1)).entries).Pairwise fun a b => V ⟨i, a.1⟩ ≠ V ⟨i, b.1⟩ :=
      (h2.pairwise_iff fun {a b} hab e => hab e.symm).1 ((entries_once (keys_laws ..) h.wf).imp fun {a b} hab => by
        unfold keys at hab; exact of_decide_eq_false hab)
    exact (List.pairwise_cons.1 hpw).1
  refine ⟨h1, fun x q => ?_, fun q hq => h.live q ((hmem q).2 (List.mem_cons_of_mem _ hq))⟩
  by_cases hx : x = V ⟨i, k⟩
  · rw [if_pos hx]
    constructor
    · nofun
    · rintro ⟨h3, h4⟩
      exact absurd (by rw [hpk, h4, hx]) (honce q h3)
  · rw [if_neg hx, h.rep x q, hmem q, List.mem_cons]
    constructor
    · rintro ⟨rfl | h3, h4⟩
      · rw [hpk] at h4; exact absurd h4.symm hx
      · exact ⟨h3, h4⟩
    · rintro ⟨h3, h4⟩; exact ⟨Or.inr h3, h4⟩

theorem goes_look (hI : Acts p I) (hr : Stands I s V) (h : TabOk p c V t f) {k : Nat} (hk : Known (V ⟨i, k⟩)) :
    Goes I (lookD p c t k) s (fun r V' => r = f (V ⟨i, k⟩) ∧ V' = V) := by
  unfold lookD
  refine Goes.bind (goes_bucket hI hr hk t) fun x s1 V1 hr1 e => ?_
  obtain ⟨rfl, rfl⟩ := e
  refine Goes.mono (goes_scan hI hk _ hr1 fun e he => h.wf.good _ e he) fun r V' e => ⟨?_, e.2⟩
  rw [e.1]; exact h.find hk

theorem goes_refill (hI : Acts p I) : ∀ (l : List (Nat × Nat)) {s : Mem p n} (u : UMap Nat Nat), Stands I s V →
    (∀ e ∈ l, Known (V ⟨i, e.1⟩)) → Goes I (refillD p c l u) s (fun r V' => r = l.foldl (UMap.push (keys p c V)) u ∧ V' = V)
  | [], s, u, hr, _ => Goes.pure hr ⟨rfl, rfl⟩
  | e :: l, s, u, hr, h => by
    unfold refillD
    refine Goes.bind (goes_bucket hI hr (h e (List.mem_cons_self ..)) u) fun x s1 V1 hr1 e => ?_
    obtain ⟨rfl, hV⟩ := e
    replace hV := hV.symm
    subst hV
    exact goes_refill hI l _ hr1 fun q hq => h q (List.mem_cons_of_mem _ hq)

/-! ## All tables -/

/-- What the tables are. -/
structure TabsOk (p : Params) (c : Shelf i j n) (V : All) (w : Tabs) (m : Maps i) : Prop where
  tab : ∀ t, TabOk p c V (w.tab t) (m t)
  apart : Separate j m

end Bdlib.Deep
