import Verif.Props.C30

/-!
# C31: `subst` applies every mapping once

`Simul kvs v out` (`Spec/Strings.lean`): `out` is `v` with every occurrence of every key replaced by its
value in one scan.  `NoOverlap x y`: occurrences of `x` and `y` never share a position in any text.
-/

namespace Bdlib.Str
open Bdlib Bdlib.Spec

variable {α : Type}

theorem noOverlap_symm {x y : List α} (h : NoOverlap x y) : NoOverlap y x :=
  fun t i j hi hj => (h t j i hj hi).symm

/-- No non-empty end of one is the beginning of the other. -/
theorem _root_.Bdlib.Spec.NoOverlap.suffix_prefix {a l b : List α} (h : NoOverlap (a ++ l) (l ++ b)) (hl : l ≠ []) : False := by
  have hll : l.length ≠ 0 := fun h => hl (List.length_eq_zero_iff.mp h)
  have := h (a ++ l ++ b) 0 a.length ⟨[], b, by simp, rfl⟩ ⟨a, [], by simp, rfl⟩
  simp only [List.length_append] at this
  omega

/-- One does not contain the other. -/
theorem _root_.Bdlib.Spec.NoOverlap.infix {a y b : List α} (h : NoOverlap (a ++ y ++ b) y) (hy : y ≠ []) : False := by
  have hyl : y.length ≠ 0 := fun h => hy (List.length_eq_zero_iff.mp h)
  have := h (a ++ y ++ b) 0 a.length ⟨[], [], by simp, rfl⟩ ⟨a, b, by simp, rfl⟩
  simp only [List.length_append] at this
  omega

theorem prefix_append_cases {l x w : List α} (h : l <+: x ++ w) : l <+: x ∨ x <+: l := by
  obtain ⟨t, ht⟩ := h
  rcases List.append_eq_append_iff.mp ht with ⟨a, h1, _⟩ | ⟨a, h1, _⟩
  · exact Or.inl ⟨a, h1.symm⟩
  · exact Or.inr ⟨a, h1.symm⟩

/-- A non-empty end `l` of `k` cannot meet `x ++ w` when `x` and `k` do not overlap. -/
theorem no_meet {k a l x w : List α} (hk : k = a ++ l) (hl : l ≠ []) (hx : x ≠ []) (hno : NoOverlap k x) :
    ¬ l <+: x ++ w := by
  intro h
  subst hk
  rcases prefix_append_cases h with ⟨b, rfl⟩ | ⟨b, rfl⟩
  · exact hno.suffix_prefix hl
  · rw [← List.append_assoc] at hno
    exact hno.infix hx

/-- The conditions on a mapping `(k, r)` relative to others already applied. -/
def Fresh (ks : List (List α × List α)) (k : List α) : Prop :=
  ∀ k' r', (k', r') ∈ ks → k' ≠ [] ∧ r' ≠ [] ∧ NoOverlap k k' ∧ NoOverlap k r'

/-- An end of `k` begins the scanned text iff it begins the original. -/
theorem simul_prefix {ks : List (List α × List α)} {k : List α} (hfr : Fresh ks k) {v w : List α} (h : Simul ks v w) :
    ∀ {a l : List α}, k = a ++ l → (l <+: w ↔ l <+: v) := by
  induction h with
  | nil => intro a l _; exact Iff.rfl
  | key hmem _ ih =>
    intro a l hk
    by_cases hl : l = []
    · subst hl; simp
    · obtain ⟨h1, h2, h3, h4⟩ := hfr _ _ hmem
      exact ⟨fun h => absurd h (no_meet hk hl h2 h4), fun h => absurd h (no_meet hk hl h1 h3)⟩
  | char _ _ ih =>
    intro a l hk
    cases l with
    | nil => simp
    | cons x l =>
      rw [List.cons_prefix_cons, List.cons_prefix_cons, ih (a := a ++ [x]) (by simpa using hk)]

/-- The scan copies an occurrence of `k` unchanged. -/
theorem simul_skip {ks : List (List α × List α)} {k : List α} (hfr : Fresh ks k) {t : List α} : ∀ {a l w : List α},
    k = a ++ l → Simul ks (l ++ t) w → ∃ w', w = l ++ w' ∧ Simul ks t w'
  | a, [], w, _, h => ⟨w, rfl, h⟩
  | a, x :: l, w, hk, h => by
    generalize hv : x :: l ++ t = v at h
    cases h with
    | nil => cases hv
    | key hmem h' =>
      exfalso
      obtain ⟨h1, h2, h3, h4⟩ := hfr _ _ hmem
      exact no_meet (w := _) hk (by simp) h1 h3 (by rw [← hv]; exact List.prefix_append _ _)
    | char hno h' =>
      obtain ⟨rfl, rfl⟩ := List.cons.inj hv
      obtain ⟨w', h1, h2⟩ := simul_skip hfr (a := a ++ [x]) (l := l) (by simpa using hk) h'
      exact ⟨w', by rw [h1]; rfl, h2⟩

theorem occursAt_cons {k v : List α} {c : α} {i : Nat} (h : OccursAt k (c :: v) i) :
    (i = 0 ∧ k <+: c :: v) ∨ ∃ j, i = j + 1 ∧ OccursAt k v j := by
  obtain ⟨b, a, h1, h2⟩ := h
  cases b with
  | nil => left; exact ⟨h2.symm, a, by rw [h1]; rfl⟩
  | cons d b =>
    right
    refine ⟨b.length, h2.symm, b, a, ?_, rfl⟩
    exact (List.cons.inj h1).2

theorem replaced_char {k r : List α} {c : α} {w out : List α} (h : Replaced k r none w out) (hno : ¬ k <+: c :: w) :
    Replaced k r none (c :: w) (c :: out) := by
  cases h with
  | done ho =>
    refine .done fun ⟨i, hi⟩ => ?_
    rcases occursAt_cons hi with ⟨_, h⟩ | ⟨j, _, h⟩
    · exact hno h
    · exact ho ⟨j, h⟩
  | @step _ _ p rest out _ hf h' =>
    have hf' : FirstAt k (c :: w) (c :: p) rest := by
      refine ⟨by rw [hf.1]; rfl, fun i hi => ?_⟩
      rcases occursAt_cons hi with ⟨_, h⟩ | ⟨j, rfl, h⟩
      · exact absurd h hno
      · have := hf.2 j h; simp; exact this
    have := Replaced.step (r := r) (n := none) (by simp) hf' h'
    simpa using this

theorem replaced_text {k r x w out : List α} (h : Replaced k r none w out)
    (hno : ∀ a l, x = a ++ l → l ≠ [] → ¬ k <+: l ++ w) : Replaced k r none (x ++ w) (x ++ out) := by
  induction x with
  | nil => exact h
  | cons c x ih =>
    refine replaced_char (ih fun a l hx hl => hno (c :: a) l (by rw [hx]; rfl) hl) ?_
    exact hno [] (c :: x) rfl (by simp)

theorem replaced_key {k r w out : List α} (h : Replaced k r none w out) : Replaced k r none (k ++ w) (r ++ out) := by
  have := Replaced.step (r := r) (n := none) (p := []) (by simp)
    (⟨rfl, fun _ _ => Nat.zero_le _⟩ : FirstAt k (k ++ w) [] w) h
  simpa using this

/-- Replacing all occurrences of a fresh key in a scanned text gives the scan with that key added. -/
theorem simul_step {ks : List (List α × List α)} {k r : List α} (hk : k ≠ []) (hfr : Fresh ks k) :
    ∀ n (v w : List α), v.length ≤ n → Simul ks v w →
    ∃ out, Replaced k r none w out ∧ Simul ((k, r) :: ks) v out := by
  have hkl : k.length ≠ 0 := fun h => hk (List.length_eq_zero_iff.mp h)
  have hdone : Replaced k r none [] [] := .done fun ⟨i, hi⟩ => by
    obtain ⟨b, a, h1, _⟩ := hi
    have := congrArg List.length h1
    simp at this
    omega
  intro n
  induction n with
  | zero =>
    intro v w hn h
    have hv0 : v = [] := List.length_eq_zero_iff.mp (by omega)
    subst hv0
    generalize hv : [] = v at h
    cases h with
    | nil => exact ⟨[], hdone, .nil⟩
    | @key k' r' rest out hmem h' =>
      exfalso
      have := (hfr _ _ hmem).1
      have h0 := congrArg List.length hv
      simp only [List.length_append, List.length_nil] at h0
      exact this (List.length_eq_zero_iff.mp (by omega))
    | char => cases hv
  | succ n ih =>
    intro v w hn h
    by_cases hpre : k <+: v
    · obtain ⟨t, rfl⟩ := hpre
      obtain ⟨w', rfl, h'⟩ := simul_skip hfr (a := []) rfl h
      simp only [List.length_append] at hn
      obtain ⟨out, h1, h2⟩ := ih t w' (by omega) h'
      exact ⟨r ++ out, replaced_key h1, .key (by simp) h2⟩
    · cases h with
      | nil => exact ⟨[], hdone, .nil⟩
      | @key k' r' rest out hmem h' =>
        obtain ⟨g1, g2, g3, g4⟩ := hfr _ _ hmem
        have hk'l : k'.length ≠ 0 := fun h => g1 (List.length_eq_zero_iff.mp h)
        simp only [List.length_append] at hn
        obtain ⟨out', h1, h2⟩ := ih rest out (by omega) h'
        refine ⟨r' ++ out', replaced_text h1 fun a l hr hl hp => ?_, .key (by simp [hmem]) h2⟩
        rcases prefix_append_cases hp with ⟨b, hb⟩ | ⟨b, hb⟩
        · subst hr
          rw [← hb, ← List.append_assoc] at g4
          exact (noOverlap_symm g4).infix hk
        · subst hr
          rw [← hb] at g4
          exact (noOverlap_symm g4).suffix_prefix hl
      | @char c v' out hno h' =>
        simp only [List.length_cons] at hn
        obtain ⟨out', h1, h2⟩ := ih v' out (by omega) h'
        refine ⟨c :: out', replaced_char h1 fun hp => hpre ?_, .char (fun k' r' hm => ?_) h2⟩
        · cases k with
          | nil => exact absurd rfl hk
          | cons x l =>
            rw [List.cons_prefix_cons] at hp ⊢
            exact ⟨hp.1, (simul_prefix hfr h' (a := [x]) rfl).mp hp.2⟩
        · rcases List.mem_cons.mp hm with heq | hm
          · cases heq; exact hpre
          · exact hno k' r' hm

theorem simul_length {ks : List (List α × List α)} {B : Nat} (hB : ∀ k r, (k, r) ∈ ks → k ≠ [] ∧ r.length ≤ B)
    {v w : List α} (h : Simul ks v w) : w.length ≤ v.length * (B + 1) := by
  induction h with
  | nil => simp
  | @key k r rest out hmem _ ih =>
    obtain ⟨h1, h2⟩ := hB _ _ hmem
    rw [List.length_append, List.length_append, Nat.add_mul]
    have hkl : k.length ≠ 0 := fun h => h1 (List.length_eq_zero_iff.mp h)
    have : B + 1 ≤ k.length * (B + 1) := Nat.le_mul_of_pos_left _ (by omega)
    omega
  | char _ _ ih =>
    rw [List.length_cons, List.length_cons, Nat.add_mul]
    omega

/-- The mapping: keys and values are not empty, and no key overlaps another key or another key's value. -/
def Independent (kvs : List (List α × List α)) : Prop :=
  (∀ e ∈ kvs, e.1 ≠ [] ∧ e.2 ≠ []) ∧
  kvs.Pairwise fun e e' => NoOverlap e.1 e'.1 ∧ NoOverlap e.1 e'.2 ∧ NoOverlap e'.1 e.2

theorem Independent.perm {kvs kvs' : List (List α × List α)} (h : Independent kvs) (hp : kvs.Perm kvs') :
    Independent kvs' := by
  refine ⟨fun e he => h.1 e (hp.mem_iff.mpr he), ?_⟩
  refine (hp.pairwise_iff ?_).mp h.2
  rintro x y ⟨h1, h2, h3⟩
  exact ⟨noOverlap_symm h1, h3, h2⟩

theorem simul_perm {ks ks' : List (List α × List α)} (hm : ∀ e, e ∈ ks ↔ e ∈ ks') {v w : List α} (h : Simul ks v w) :
    Simul ks' v w := by
  induction h with
  | nil => exact .nil
  | key hmem _ ih => exact .key ((hm _).mp hmem) ih
  | char hno _ ih => exact .char (fun k r hk => hno k r ((hm _).mpr hk)) ih

theorem simul_nil (v : List α) : Simul ([] : List (List α × List α)) v v := by
  induction v with
  | nil => exact .nil
  | cons c v ih => exact .char (by simp) ih

/-- The result of one scan is determined. -/
theorem simul_unique {kvs : List (List α × List α)} (hi : Independent kvs) {v w : List α} (h : Simul kvs v w) :
    ∀ {w'}, Simul kvs v w' → w = w' := by
  have hsame : ∀ e ∈ kvs, ∀ e' ∈ kvs, ∀ t t', e.1 ++ t = e'.1 ++ t' → e = e' := by
    intro e he e' he' t t' heq
    apply Classical.byContradiction
    intro hne
    have hno : NoOverlap e.1 e'.1 := by
      have hsym : ∀ x y : List α × List α, (NoOverlap x.1 y.1 ∧ NoOverlap x.1 y.2 ∧ NoOverlap y.1 x.2) →
          (NoOverlap y.1 x.1 ∧ NoOverlap y.1 x.2 ∧ NoOverlap x.1 y.2) :=
        fun x y h => ⟨noOverlap_symm h.1, h.2.2, h.2.1⟩
      have := List.Pairwise.forall_of_forall_of_flip (R := fun x y => x ≠ y → NoOverlap x.1 y.1)
        (l := kvs) (fun x _ h => absurd rfl h) (hi.2.imp fun h _ => h.1) (hi.2.imp fun h _ => noOverlap_symm h.1)
      exact this he he' hne
    have hp : e.1 <+: e'.1 ++ t' := ⟨t, heq⟩
    exact no_meet (a := []) rfl (hi.1 e he).1 (hi.1 e' he').1 hno hp
  induction h with
  | nil =>
    intro w' h'
    generalize hv : [] = v at h'
    cases h' with
    | nil => rfl
    | key hmem _ =>
      exfalso
      have := (hi.1 _ hmem).1
      have h0 := congrArg List.length hv
      simp only [List.length_append, List.length_nil] at h0
      exact this (List.length_eq_zero_iff.mp (by dsimp only; omega))
    | char => cases hv
  | @key k r rest out hmem h1 ih =>
    intro w' h'
    generalize hv : k ++ rest = v at h'
    cases h' with
    | nil =>
      exfalso
      have := (hi.1 _ hmem).1
      have h0 := congrArg List.length hv
      simp only [List.length_append, List.length_nil] at h0
      exact this (List.length_eq_zero_iff.mp (by dsimp only; omega))
    | @key k' r' rest' out' hmem' h2 =>
      have := hsame _ hmem _ hmem' _ _ hv
      cases this
      have := List.append_cancel_left hv
      subst this
      rw [ih h2]
    | char hno _ => exact absurd ⟨rest, hv⟩ (hno k r hmem)
  | @char c v out hno h1 ih =>
    intro w' h'
    generalize hv : c :: v = u at h'
    cases h' with
    | nil => cases hv
    | @key k' r' rest' out' hmem' h2 => exact absurd ⟨rest', hv.symm⟩ (hno k' r' hmem')
    | char _ h2 =>
      obtain ⟨rfl, rfl⟩ := List.cons.inj hv
      rw [ih h2]

/-- One application of the map, in the order `kvs`, after the mappings `ks`. -/
theorem subst_spec {L : Libc} (hL : L.Ok) {B : Nat} {v : Bytes} (hv : v.length * (B + 1) ≤ maxInt) :
    ∀ (kvs ks : List (Bytes × Bytes)) (w : Bytes), Independent (ks.reverse ++ kvs) →
    (∀ e ∈ ks ++ kvs, e.2.length ≤ B) → Simul ks v w → ∀ fuel, maxInt < fuel →
    ∃ out, subst L fuel kvs w = .ret out ∧ Simul (kvs.reverse ++ ks) v out
  | [], ks, w, _, _, hs, fuel, _ => ⟨w, rfl, by simpa using hs⟩
  | (k, r) :: kvs, ks, w, hi, hB, hs, fuel, hfuel => by
    have hkr := hi.1 (k, r) (by simp)
    have hfr : Fresh ks k := by
      intro k' r' hm
      have h1 := hi.1 (k', r') (by simp [hm])
      have h2 := (List.pairwise_append.mp hi.2).2.2 (k', r') (by simpa using hm) (k, r) (by simp)
      exact ⟨h1.1, h1.2, noOverlap_symm h2.1, h2.2.2⟩
    have hlen : w.length ≤ v.length * (B + 1) :=
      simul_length (fun k' r' hm => ⟨(hi.1 (k', r') (by simp [hm])).1, hB (k', r') (by simp [hm])⟩) hs
    obtain ⟨out, h1, h2⟩ := simul_step (r := r) hkr.1 hfr v.length v w (Nat.le_refl _) hs
    obtain ⟨out', h3, h4⟩ := c30_sub_partial hL r (v := w) (d := k) (by omega) hkr.1 (Or.inl rfl) fuel (by omega)
    have : out' = out := c30_unique h4 h1
    subst this
    obtain ⟨res, h5, h6⟩ := subst_spec hL hv kvs ((k, r) :: ks) out' (by simpa using hi)
      (fun e he => hB e (by simp at he ⊢; rcases he with rfl | he | he <;> simp [*])) h2 fuel hfuel
    refine ⟨res, ?_, by simpa using h6⟩
    unfold subst
    rw [h3]
    exact h5

/-- `subst(map)`, for any iteration order of the map: every occurrence of every key is replaced by its
value, and the order does not matter.

Partial: besides the independence asked for, the values must not be empty (`c31_refuted_empty`), and the
results must stay below 2^31 characters. -/
theorem c31_subst_partial {L : Libc} (hL : L.Ok) {kvs : List (Bytes × Bytes)} (hi : Independent kvs) {B : Nat}
    (hB : ∀ e ∈ kvs, e.2.length ≤ B) {v : Bytes} (hv : v.length * (B + 1) ≤ maxInt) {fuel : Nat} (hf : maxInt < fuel) :
    ∃ out, Simul kvs v out ∧ ∀ order, kvs.Perm order → subst L fuel order v = .ret out := by
  obtain ⟨out, h1, h2⟩ := subst_spec hL hv kvs [] v (by simpa using hi) (by simpa using hB) (simul_nil v) fuel hf
  have h2' : Simul kvs v out := simul_perm (by simp) h2
  refine ⟨out, h2', fun order hp => ?_⟩
  obtain ⟨out', h3, h4⟩ := subst_spec hL hv order [] v (by simpa using hi.perm hp)
    (by simpa using fun e he => hB e (hp.mem_iff.mpr he)) (simul_nil v) fuel hf
  have h4' : Simul kvs v out' := simul_perm (fun e => by simp [hp.mem_iff]) h4
  rw [h3, simul_unique hi h2' h4']

/-- A value may be empty, though the keys `ab` and `c` overlap nothing: `acb` becomes `ab` or `x`,
depending on the order. -/
theorem c31_refuted_empty : subst glibc 9 [([97, 98], [120]), ([99], [])] [97, 99, 98] = .ret [97, 98] ∧
    subst glibc 9 [([99], []), ([97, 98], [120])] [97, 99, 98] = .ret [120] := by decide

/-- Keys that occur in values: `{a -> b, b -> c}` turns `a` into `c` or `b`. -/
theorem c31_refuted_chain : subst glibc 9 [([97], [98]), ([98], [99])] [97] = .ret [99] ∧
    subst glibc 9 [([98], [99]), ([97], [98])] [97] = .ret [98] := by decide

/-- Words without a common letter do not overlap. -/
theorem noOverlap_of_disjoint {x y : List α} (hx : x ≠ []) (hy : y ≠ []) (h : ∀ c ∈ x, c ∉ y) : NoOverlap x y := by
  have hx0 : x.length ≠ 0 := fun h => hx (List.length_eq_zero_iff.mp h)
  have hy0 : y.length ≠ 0 := fun h => hy (List.length_eq_zero_iff.mp h)
  intro t i j ⟨b, a, h1, h2⟩ ⟨b', a', h3, h4⟩
  apply Classical.byContradiction
  intro hc
  have hxl : i < j + y.length := by omega
  have hyl : j < i + x.length := by omega
  have hpos : (max i j) < t.length := by
    have := congrArg List.length h1; have := congrArg List.length h3
    simp only [List.length_append] at *
    omega
  have e1 : t[max i j]? = x[max i j - i]? := by
    rw [h1, List.append_assoc, List.getElem?_append_right (by omega), List.getElem?_append_left (by omega), h2]
  have e2 : t[max i j]? = y[max i j - j]? := by
    rw [h3, List.append_assoc, List.getElem?_append_right (by omega), List.getElem?_append_left (by omega), h4]
  rw [e1] at e2
  have hx : max i j - i < x.length := by omega
  have hy : max i j - j < y.length := by omega
  rw [List.getElem?_eq_getElem hx, List.getElem?_eq_getElem hy] at e2
  have e3 := Option.some.inj e2
  exact h _ (List.getElem_mem hx) (by rw [e3]; exact List.getElem_mem hy)

/-- `{ab -> x, c -> yz}` is independent. -/
example : Independent [(([97, 98] : Bytes), ([120] : Bytes)), ([99], [121, 122])] := by
  refine ⟨by simp, ?_⟩
  rw [List.pairwise_cons]
  refine ⟨?_, by simp⟩
  intro e he
  simp only [List.mem_singleton] at he
  subst he
  exact ⟨noOverlap_of_disjoint (by simp) (by simp) (by simp), noOverlap_of_disjoint (by simp) (by simp) (by simp), noOverlap_of_disjoint (by simp) (by simp) (by simp)⟩
example : subst glibc 9 [([97, 98], [120]), ([99], [121, 122])] [97, 98, 99, 98] = .ret [120, 121, 122, 98] := by decide

end Bdlib.Str
