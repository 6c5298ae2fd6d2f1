import Verif.Deep.Tower
import Verif.Nest.Hash

/-!
# Comparing, searching and hashing: proofs

If the elements can be compared and hashed then so can the arrays; by induction, arrays nested to any depth.
-/

namespace Bdlib.Deep
open Bdlib Bdlib.Spec Bdlib.Rca Bdlib.Str
open Pg (undef)

section
variable {c : Conf} {T : Type} {R : c.elt.Mem → Env T → Prop} {env : Env T} {s : St Nat} {ea : Env (Slot T)}

/-- What the array memory `s` says about the arrays, when the objects hold `env`. -/
structure Frame (c : Conf) {T : Type} (env : Env T) (s : St Nat) (ea : Env (Slot T)) : Prop where
  len : ∀ {a xs}, ea a = .val xs → Rca.length a s = .ok xs.length s
  cell : ∀ {a : Nat} {xs : List (Slot T)}, ea a = .val xs → ∀ {i y}, xs[i]? = some y →
    ∃ t, env t = y ∧ ∀ m, Deep.cell c a i (⟨m, s⟩ : World c) = .ok t ⟨m, s⟩
  size : ∀ {a xs}, ea a = .val xs → xs.length < maxCells
  same : ∀ {a b xs ys}, ea a = .val xs → ea b = .val ys → ∃ r, sameStart a b s = .ok r s ∧
    (r = true → xs.length = ys.length → xs = ys)

theorem RelE.frame [DecidableEq T] {mv : Slot T} {θ : Slot T → UInt64} {us : Env T} {σ : St (Slot T)} {w : World c}
    (hc : Good mv R) (hR : RelE R env us σ w) (hA : Reach (c.val θ mv) σ ea) : Frame c env w.arrs ea where
  len {a xs} ha := by
    have := hA.agrees (val_valid c θ mv) (val_phys hc) a
    rw [ha] at this
    have hl := this.1
    unfold Rca.length at hl ⊢
    obtain ⟨ob, s1, h1, h2⟩ := bind_inv hl
    obtain ⟨rfl, ho⟩ := getObj_inv h1
    rw [hR.like.obj] at ho
    rw [bind_ok (getObj_eq ho)]
    change Bdlib.Res.ok _ _ = _ at h2
    simp only [Bdlib.Res.ok.injEq, and_true] at h2
    show Bdlib.Res.ok ob.sublen _ = _
    rw [h2]
  cell {a xs} ha {i y} hy := by
    have := hA.agrees (val_valid c θ mv) (val_phys hc) a
    rw [ha] at this
    obtain ⟨hi, rfl⟩ := List.getElem?_eq_some_iff.mp hy
    have hrd := this.2 i hi
    rw [List.getElem?_eq_getElem hi] at hrd
    unfold Rca.read at hrd
    obtain ⟨ys, s1, hx, hx'⟩ := bind_inv hrd
    obtain ⟨rfl, t, b, B, ob, ho, hr, hb, hlt, _, hw, _, rfl, _⟩ := cell_ok hR hx
    refine ⟨t, ?_, fun m => ?_⟩
    · change Bdlib.Res.ok (some _) _ = _ at hx'
      simp only [Bdlib.Res.ok.injEq, Option.some.injEq, and_true] at hx'
      exact hx'
    · unfold Deep.cell
      rw [pbind_ok (arrs_ok (w := (⟨m, w.arrs⟩ : World c)) (readRange_do ho hr hb hlt)), hw]
      rfl
  size {a xs} ha := hA.len_lt (val_valid c θ mv) (val_phys hc) ha
  same {a b xs ys} ha hb := by
    have := runs_sameStart (E := fun _ _ => False) (val_valid c θ mv) (val_phys hc) hA ha hb
    unfold Runs at this
    cases hs : sameStart a b σ with
    | ub => rw [hs] at this; exact this.elim
    | throw e σ' => rw [hs] at this; obtain ⟨_, h, _⟩ := this; exact h.elim
    | ok r σ' =>
      rw [hs] at this
      obtain ⟨env', ⟨h, -⟩, -⟩ := this
      refine ⟨r, ?_, h⟩
      unfold sameStart at hs ⊢
      obtain ⟨x, s1, h1, h2⟩ := bind_inv hs
      obtain ⟨rfl, hx⟩ := getObj_inv h1
      obtain ⟨y, s1, h3, h4⟩ := bind_inv h2
      obtain ⟨rfl, hy⟩ := getObj_inv h3
      rw [hR.like.obj] at hx hy
      rw [bind_ok (getObj_eq hx), bind_ok (getObj_eq hy)]
      change Bdlib.Res.ok _ _ = _ at h4
      simp only [Bdlib.Res.ok.injEq] at h4
      show Bdlib.Res.ok _ _ = _
      rw [h4.1]

/-- The program looks at elements and arrays and gives an answer with property `q`; it changes no value. -/
def Looks {β : Type} (R : c.elt.Mem → Env T → Prop) (env : Env T) (s : St Nat) (m : P c β) (q : β → Prop) : Prop :=
  ∀ e, R e env → ∃ b e', m (⟨e, s⟩ : World c) = .ok b ⟨e', s⟩ ∧ R e' env ∧ q b

theorem Looks.bind {β γ : Type} {m : P c β} {f : β → P c γ} {q : β → Prop} {r : γ → Prop} (h : Looks R env s m q)
    (hf : ∀ b, q b → Looks R env s (f b) r) : Looks R env s (m >>= f) r := fun e he => by
  obtain ⟨b, e1, h1, h2, h3⟩ := h e he
  obtain ⟨x, e2, h4, h5, h6⟩ := hf b h3 e1 h2
  exact ⟨x, e2, by rw [pbind_ok h1, h4], h5, h6⟩

theorem Looks.pure {β : Type} {b : β} {q : β → Prop} (hq : q b) : Looks (c := c) R env s (Pure.pure b) q :=
  fun e he => ⟨b, e, rfl, he, hq⟩

theorem Looks.mono {β : Type} {m : P c β} {q r : β → Prop} (h : Looks R env s m q) (hr : ∀ b, q b → r b) :
    Looks R env s m r := fun e he => by
  obtain ⟨b, e1, h1, h2, h3⟩ := h e he
  exact ⟨b, e1, h1, h2, hr b h3⟩

theorem looks_arrs {β : Type} {m : M Nat β} {b : β} (h : m s = .ok b s) : Looks (c := c) R env s (arrs m) (· = b) :=
  fun e he => ⟨b, e, arrs_ok (w := (⟨e, s⟩ : World c)) h, he, rfl⟩

theorem looks_elts {β : Type} {m : Pg c.elt.Mem β} {b : β} (h : ∀ e, R e env → ∃ e', m e = .ok b e' ∧ R e' env) :
    Looks (c := c) R env s (elts m) (· = b) := fun e he => by
  obtain ⟨e', h1, h2⟩ := h e he
  exact ⟨b, e', elts_ok (w := (⟨e, s⟩ : World c)) h1, h2, rfl⟩

theorem looks_cell (hF : Frame c env s ea) {a i : Nat} {xs : List (Slot T)} {y : Slot T} (ha : ea a = .val xs)
    (hy : xs[i]? = some y) : Looks (c := c) R env s (cell c a i) (fun t => env t = y) := fun e he => by
  obtain ⟨t, h1, h2⟩ := hF.cell ha hy
  exact ⟨t, e, h2 e, he, h1⟩

theorem looks_length (hF : Frame c env s ea) {a : Nat} {xs : List (Slot T)} (ha : ea a = .val xs) :
    Looks (c := c) R env s (arrs (Rca.length a)) (· = xs.length) := looks_arrs (hF.len ha)

/-- The elements can be compared, if they are of kind `K`. -/
def EqLaw {S T : Type} (R : S → Env T → Prop) (K : Slot T → Prop) (eq : Nat → Nat → Pg S Bool) : Prop :=
  ∀ ⦃e env⦄, R e env → ∀ ⦃a b⦄, K (env a) → K (env b) →
    ∃ r e', eq a b e = .ok r e' ∧ R e' env ∧ (r = true ↔ env a = env b)

/-- The elements can be hashed, if they are of kind `K`. -/
def HashLaw {S T : Type} (R : S → Env T → Prop) (K : Slot T → Prop) (θ : Slot T → UInt64) (hash : Nat → Pg S UInt64) : Prop :=
  ∀ ⦃e env⦄, R e env → ∀ ⦃a⦄, K (env a) → ∃ e', hash a e = .ok (θ (env a)) e' ∧ R e' env

section Compare
variable [DecidableEq T] {K : Slot T → Prop} {eq : Nat → Nat → Pg c.elt.Mem Bool} (hE : EqLaw R K eq) (hF : Frame c env s ea)
include hE hF

omit hF in
theorem looks_eq {a b : Nat} (ha : K (env a)) (hb : K (env b)) :
    Looks R env s (elts (eq a b)) (· = decide (env a = env b)) := fun e he => by
  obtain ⟨r, e', h1, h2, h3⟩ := hE he ha hb
  refine ⟨r, e', elts_ok (w := (⟨e, s⟩ : World c)) h1, h2, ?_⟩
  by_cases h : env a = env b
  · rw [decide_eq_true h]; exact h3.mpr h
  · rw [decide_eq_false h]
    cases r with
    | false => rfl
    | true => exact absurd (h3.mp rfl) h

theorem looks_findLoop {a h : Nat} {xs : List (Slot T)} (ha : ea a = .val xs) (hk : ∀ x ∈ xs, K x) (hh : K (env h)) :
    ∀ (k i : Nat), i + k = xs.length → Looks R env s (findLoop c eq a h i k)
      (fun r => match r with
        | some m => Smallest (fun j => i ≤ j ∧ xs[j]? = some (env h)) m
        | none => ∀ j, i ≤ j → ¬ xs[j]? = some (env h))
  | 0, i, hi => Looks.pure fun j hj hx => by
      rw [List.getElem?_eq_none (by omega)] at hx; cases hx
  | k + 1, i, hi => by
    have hlt : i < xs.length := by omega
    unfold findLoop
    refine Looks.bind (looks_cell hF ha (List.getElem?_eq_getElem hlt)) fun t ht => ?_
    refine Looks.bind (looks_eq hE (a := t) (b := h) (by rw [ht]; exact hk _ (List.getElem_mem hlt)) hh)
      fun r hr => ?_
    subst hr
    rw [ht]
    by_cases he : xs[i] = env h
    · simp only [he, decide_true, if_true]
      exact Looks.pure ⟨⟨Nat.le_refl _, by rw [List.getElem?_eq_getElem hlt, he]⟩, fun j hj => hj.1⟩
    · simp only [he, decide_false]
      refine Looks.mono (looks_findLoop ha hk hh k (i + 1) (by omega)) fun r hr => ?_
      have hne : ∀ j, i ≤ j → xs[j]? = some (env h) → i + 1 ≤ j := fun j hj hx => by
        rcases Nat.lt_or_ge i j with h | h
        · exact h
        · have : j = i := by omega
          subst this
          rw [List.getElem?_eq_getElem hlt] at hx
          exact absurd (Option.some.inj hx) he
      cases r with
      | none => exact fun j hj hx => hr j (hne j hj hx) hx
      | some m => exact ⟨⟨by have := hr.1.1; omega, hr.1.2⟩, fun j hj => hr.2 j ⟨hne j hj.1 hj.2, hj.2⟩⟩

theorem looks_find_ {a h pos : Nat} {xs : List (Slot T)} (ha : ea a = .val xs) (hk : ∀ x ∈ xs, K x) (hh : K (env h))
    (hp : pos ≤ xs.length) :
    Looks R env s (find_ c eq a h pos) (Finds Smallest (fun d => xs[pos + d]? = some (env h)) npos) := by
  unfold find_
  have hsz := hF.size ha
  refine Looks.bind (looks_length hF ha) fun n hn => ?_
  subst hn
  rw [if_neg (by omega)]
  refine Looks.bind (looks_findLoop hE hF ha hk hh (xs.length - pos) pos (by omega)) fun r hr => ?_
  cases r with
  | none => exact Looks.pure (.inr ⟨fun d hx => hr (pos + d) (by omega) hx, rfl⟩)
  | some m =>
    have hm : m < xs.length := (List.getElem?_eq_some_iff.mp hr.1.2).1
    have hle := hr.1.1
    refine Looks.pure (.inl ⟨⟨?_, fun d hd => ?_⟩, ?_⟩)
    · show xs[pos + (m - pos)]? = _
      rw [show pos + (m - pos) = m by omega]; exact hr.1.2
    · have := hr.2 (pos + d) ⟨by omega, hd⟩
      omega
    · unfold maxCells at hsz; unfold npos; omega

theorem looks_find {a h : Nat} {xs : List (Slot T)} (ha : ea a = .val xs) (hk : ∀ x ∈ xs, K x) (hh : K (env h)) :
    Looks R env s (find c eq a h) (Finds Smallest (fun i => xs[i]? = some (env h)) npos) := by
  have := looks_find_ hE hF ha hk hh (Nat.zero_le _)
  simp only [Nat.zero_add] at this
  exact this

theorem looks_findFrom {a h pos : Nat} {xs : List (Slot T)} (ha : ea a = .val xs) (hk : ∀ x ∈ xs, K x) (hh : K (env h))
    (hp : pos ≤ xs.length) :
    Looks R env s (findFrom c eq a h pos) (Finds Smallest (fun d => xs[pos + d]? = some (env h)) npos) := by
  unfold findFrom
  by_cases h0 : pos ≠ 0
  · rw [if_pos h0]
    refine Looks.bind (looks_arrs (b := ()) ?_) fun _ _ => looks_find_ hE hF ha hk hh hp
    unfold Rca.validateIndex
    rw [bind_ok (hF.len ha), if_neg (by omega)]
    rfl
  · rw [if_neg h0]
    exact looks_find_ hE hF ha hk hh hp

omit hE in
theorem findFrom_throw {a h pos : Nat} {xs : List (Slot T)} (ha : ea a = .val xs) (hp : ¬ pos ≤ xs.length) (e : c.elt.Mem) :
    findFrom c eq a h pos (⟨e, s⟩ : World c) = .throw .outOfRange ⟨e, s⟩ := by
  unfold findFrom
  rw [if_pos (by omega)]
  refine pbind_throw (arrs_throw ?_)
  unfold Rca.validateIndex
  show (Rca.length a >>= _) s = _
  rw [bind_ok (hF.len ha), if_pos (by omega)]
  rfl

theorem looks_rfindLoop {a h : Nat} {xs : List (Slot T)} (ha : ea a = .val xs) (hk : ∀ x ∈ xs, K x) (hh : K (env h)) :
    ∀ k : Nat, k ≤ xs.length → Looks R env s (rfindLoop c eq a h k)
      (Finds Largest (fun j => j < k ∧ xs[j]? = some (env h)) npos)
  | 0, _ => Looks.pure (.inr ⟨fun j hj => by omega, rfl⟩)
  | k + 1, hkl => by
    have hlt : k < xs.length := by omega
    have hsz := hF.size ha
    unfold rfindLoop
    refine Looks.bind (looks_cell hF ha (List.getElem?_eq_getElem hlt)) fun t ht => ?_
    refine Looks.bind (looks_eq hE (a := t) (b := h) (by rw [ht]; exact hk _ (List.getElem_mem hlt)) hh)
      fun r hr => ?_
    subst hr
    rw [ht]
    by_cases he : xs[k] = env h
    · simp only [he, decide_true, if_true]
      refine Looks.pure (.inl ⟨⟨⟨by omega, by rw [List.getElem?_eq_getElem hlt, he]⟩, fun j hj => by omega⟩, ?_⟩)
      unfold maxCells at hsz; unfold npos; omega
    · simp only [he, decide_false]
      refine Looks.mono (looks_rfindLoop ha hk hh k (by omega)) fun r hr => ?_
      have hne : ∀ j, j < k + 1 → xs[j]? = some (env h) → j < k := fun j hj hx => by
        rcases Nat.lt_or_ge j k with h | h
        · exact h
        · have : j = k := by omega
          subst this
          rw [List.getElem?_eq_getElem hlt] at hx
          exact absurd (Option.some.inj hx) he
      rcases hr with ⟨⟨h1, h2⟩, h3⟩ | ⟨h1, h2⟩
      · exact .inl ⟨⟨⟨by omega, h1.2⟩, fun j hj => h2 j ⟨hne j hj.1 hj.2, hj.2⟩⟩, h3⟩
      · exact .inr ⟨fun j hj => h1 j ⟨hne j hj.1 hj.2, hj.2⟩, h2⟩

theorem looks_rfind {a h : Nat} {xs : List (Slot T)} (ha : ea a = .val xs) (hk : ∀ x ∈ xs, K x) (hh : K (env h)) :
    Looks R env s (rfind c eq a h) (Finds Largest (fun i => xs[i]? = some (env h)) npos) := by
  unfold rfind
  refine Looks.bind (looks_length hF ha) fun n hn => ?_
  subst hn
  refine Looks.mono (looks_rfindLoop hE hF ha hk hh xs.length (Nat.le_refl _)) fun r hr => ?_
  have hin : ∀ j, xs[j]? = some (env h) → j < xs.length := fun j hj => (List.getElem?_eq_some_iff.mp hj).1
  rcases hr with ⟨⟨h1, h2⟩, h3⟩ | ⟨h1, h2⟩
  · exact .inl ⟨⟨h1.2, fun j hj => h2 j ⟨hin j hj, hj⟩⟩, h3⟩
  · exact .inr ⟨fun j hj => h1 j ⟨hin j hj, hj⟩, h2⟩

theorem looks_equalsLoop {a b : Nat} {xs ys : List (Slot T)} (ha : ea a = .val xs) (hb : ea b = .val ys)
    (hx : ∀ x ∈ xs, K x) (hy : ∀ y ∈ ys, K y) : ∀ (k i : Nat), i + k ≤ xs.length → i + k ≤ ys.length →
      Looks R env s (equalsLoop c eq a b i k) (fun r => r = true ↔ (xs.drop i).take k = (ys.drop i).take k)
  | 0, i, _, _ => Looks.pure (by simp)
  | k + 1, i, h1, h2 => by
    have hlt : i < xs.length := by omega
    have hlu : i < ys.length := by omega
    unfold equalsLoop
    refine Looks.bind (looks_cell hF ha (List.getElem?_eq_getElem hlt)) fun t ht => ?_
    refine Looks.bind (looks_cell hF hb (List.getElem?_eq_getElem hlu)) fun u hu => ?_
    refine Looks.bind (looks_eq hE (a := t) (b := u) (by rw [ht]; exact hx _ (List.getElem_mem hlt))
      (by rw [hu]; exact hy _ (List.getElem_mem hlu))) fun r hr => ?_
    subst hr
    rw [ht, hu, List.drop_eq_getElem_cons hlt, List.drop_eq_getElem_cons hlu, List.take_succ_cons, List.take_succ_cons]
    by_cases he : xs[i] = ys[i]
    · simp only [he, decide_true, if_true]
      refine Looks.mono (looks_equalsLoop ha hb hx hy k (i + 1) (by omega) (by omega)) fun r hr => ?_
      rw [hr]
      simp
    · simp only [he, decide_false]
      exact Looks.pure (by simp [he])

theorem looks_equalsN {a b n : Nat} {xs ys : List (Slot T)} (ha : ea a = .val xs) (hb : ea b = .val ys)
    (hx : ∀ x ∈ xs, K x) (hy : ∀ y ∈ ys, K y) :
    Looks R env s (equalsN c eq a b n) (fun r => r = true ↔ xs.length = ys.length ∧ xs.take n = ys.take n) := by
  unfold equalsN
  refine Looks.bind (looks_length hF ha) fun la h1 => ?_
  subst h1
  refine Looks.bind (looks_length hF hb) fun lb h2 => ?_
  subst h2
  obtain ⟨r, hs, hsame⟩ := hF.same ha hb
  refine Looks.bind (looks_arrs hs) fun r' hr => ?_
  subst hr
  by_cases hs : r' = true ∧ xs.length = ys.length
  · rw [if_pos hs]
    have := hsame hs.1 hs.2
    subst this
    exact Looks.pure (by simp)
  · rw [if_neg hs]
    by_cases hl : xs.length ≠ ys.length
    · rw [if_pos hl]
      exact Looks.pure (by simp [hl])
    · rw [if_neg hl]
      have hl : xs.length = ys.length := Classical.not_not.mp hl
      refine Looks.mono (looks_equalsLoop hE hF ha hb hx hy _ 0 (by omega) (by omega)) fun r hr => ?_
      rw [hr, hl]
      simp only [List.drop_zero, true_and]
      rw [show min ys.length (min ys.length n) = min ys.length n by omega]
      rcases Nat.le_total n ys.length with h | h
      · rw [Nat.min_eq_right h]
      · rw [Nat.min_eq_left h, List.take_of_length_le (by omega), List.take_of_length_le (by omega),
          List.take_of_length_le (by omega), List.take_of_length_le h]

theorem looks_equals {a b : Nat} {xs ys : List (Slot T)} (ha : ea a = .val xs) (hb : ea b = .val ys)
    (hx : ∀ x ∈ xs, K x) (hy : ∀ y ∈ ys, K y) : Looks R env s (equals c eq a b) (· = decide (xs = ys)) := by
  unfold equals
  refine Looks.bind (looks_length hF ha) fun la h1 => ?_
  subst h1
  refine Looks.bind (looks_length hF hb) fun lb h2 => ?_
  subst h2
  by_cases hl : xs.length = ys.length
  · rw [if_pos hl]
    refine Looks.mono (looks_equalsN hE hF ha hb hx hy) fun r hr => ?_
    rw [List.take_of_length_le (by omega), List.take_of_length_le (by omega)] at hr
    by_cases he : xs = ys
    · rw [decide_eq_true he]; exact hr.mpr ⟨hl, he⟩
    · rw [decide_eq_false he]
      cases r with
      | false => rfl
      | true => exact absurd (hr.mp rfl).2 he
  · rw [if_neg hl]
    exact Looks.pure (by rw [decide_eq_false]; exact fun e => hl (by rw [e]))

end Compare

theorem looks_hashLoop {K : Slot T → Prop} {θ : Slot T → UInt64} {hash : Nat → Pg c.elt.Mem UInt64} (hH : HashLaw R K θ hash)
    (hF : Frame c env s ea) {a : Nat} {xs : List (Slot T)} (ha : ea a = .val xs) (hk : ∀ x ∈ xs, K x) :
    ∀ (k i : Nat) (acc : UInt64), i + k = xs.length →
      Looks R env s (hashLoop c hash a i k acc) (· = Rca.hashLoop θ acc (xs.drop i))
  | 0, i, acc, hi => Looks.pure (by rw [List.drop_eq_nil_of_le (by omega)]; rfl)
  | k + 1, i, acc, hi => by
    have hlt : i < xs.length := by omega
    unfold hashLoop
    refine Looks.bind (looks_cell hF ha (List.getElem?_eq_getElem hlt)) fun t ht => ?_
    refine Looks.bind (looks_elts fun e he => hH he (a := t) (by rw [ht]; exact hk _ (List.getElem_mem hlt))) fun r hr => ?_
    subst hr
    refine Looks.mono (looks_hashLoop hH hF ha hk k (i + 1) _ (by omega)) fun r hr => ?_
    rw [hr, List.drop_eq_getElem_cons hlt, Rca.hashLoop, ht]

/-! ## Arrays can be compared and hashed -/

section Arrays
variable [DecidableEq T] {mv : Slot T} {θ : Slot T → UInt64} {K : Slot T → Prop} {es : Env T}

/-- An array of elements of kind `K`. -/
def AllOf (K : Slot T → Prop) (y : Slot (Slot T)) : Prop := ∃ xs, y = .val xs ∧ ∀ x ∈ xs, K x

theorem inv_looks {β : Type} {m : P c β} {q : β → Prop} {w : World c} (hc : Good mv R) (h : Inv θ mv R w es ea)
    (hm : ∀ env : Env T, (∀ x, es x ≠ .dead → env x = es x) → Frame c env w.arrs ea → Looks R env w.arrs m q) :
    ∃ b w', m w = .ok b w' ∧ Inv θ mv R w' es ea ∧ q b := by
  obtain ⟨σ, ⟨env, hR⟩, hA⟩ := h
  obtain ⟨b, e', h1, h2, h3⟩ := hm env (fun x hx => (user_not_cell hR hx).2) (hR.frame hc hA) w.elts hR.reach
  exact ⟨b, ⟨e', w.arrs⟩, h1, ⟨σ, ⟨env, h2, hR.like, hR.nodup, hR.disj, hR.cell, hR.rest⟩, hA⟩, h3⟩

theorem array_eq {eq : Nat → Nat → Pg c.elt.Mem Bool} (hc : Good mv R) (hE : EqLaw R K eq) :
    EqLaw (fun w ea => Inv θ mv R (c := c) w es ea) (AllOf K) (equals c eq) := by
  intro w ea h a b ⟨xs, ha, hx⟩ ⟨ys, hb, hy⟩
  obtain ⟨r, w', h1, h2, rfl⟩ := inv_looks hc h fun env _ hF => looks_equals hE hF ha hb hx hy
  refine ⟨_, w', h1, h2, ?_⟩
  rw [ha, hb]
  simp

theorem inv_hash {hash : Nat → Pg c.elt.Mem UInt64} (hc : Good mv R) (hH : HashLaw R K θ hash) {w : World c}
    (h : Inv θ mv R w es ea) {a : Nat} {xs : List (Slot T)} (ha : ea a = .val xs) (hk : ∀ x ∈ xs, K x) :
    ∃ x w', hashArr c hash a w = .ok x w' ∧ Inv θ mv R w' es ea ∧ x.toNat = djb (fun y => (θ y).toNat) xs := by
  obtain ⟨σ, ⟨env, hR⟩, hA⟩ := h
  have hF := hR.frame hc hA
  have hlen := hF.len ha
  unfold Rca.length at hlen
  obtain ⟨ob, s1, h1, h2⟩ := bind_inv hlen
  obtain ⟨rfl, ho⟩ := getObj_inv h1
  change Bdlib.Res.ok _ _ = _ at h2
  simp only [Bdlib.Res.ok.injEq, and_true] at h2
  have hoσ : σ.obj a = some ob := by rw [hR.like.obj]; exact ho
  have hrun := Nest.runs_hash (E := fun _ _ => False) (val_valid c θ mv) (val_phys hc) hA ha
  unfold hashArr
  rw [pbind_ok (arrs_ok (getObj_eq ho))]
  by_cases hh : ob.hash ≠ 0
  · rw [if_pos hh]
    unfold Runs Rca.hash at hrun
    rw [bind_ok (getObj_eq hoσ), if_pos hh] at hrun
    obtain ⟨env', ⟨h3, -⟩, -⟩ := hrun
    exact ⟨ob.hash, w, rfl, ⟨σ, ⟨env, hR⟩, hA⟩, h3⟩
  · rw [if_neg hh]
    obtain ⟨x, e', h4, h5, rfl⟩ := looks_hashLoop hH hF ha hk ob.sublen 0 5381 (by omega) w.elts hR.reach
    have hread := Nest.readRange_whole (val_valid c θ mv) (val_phys hc) hA ha
    rw [← h2] at hread
    unfold Runs Rca.hash at hrun
    rw [bind_ok (getObj_eq hoσ), if_neg hh, bind_ok hread] at hrun
    dsimp only at hrun
    rw [List.drop_zero] at h4
    rw [show (c.val θ mv).hasher = θ from rfl] at hrun
    generalize hx : Rca.hashLoop θ 5381 xs = x at *
    rw [bind_ok (show putObj a _ σ = .ok () _ from rfl)] at hrun
    erw [pbind_ok h4]
    rw [pbind_ok (arrs_ok (w := (⟨e', w.arrs⟩ : World c)) (show putObj a _ w.arrs = .ok () _ from rfl))]
    obtain ⟨env', ⟨h6, rfl⟩, h7, -⟩ := hrun
    exact ⟨_, _, rfl, ⟨_, ⟨env, h5, hR.like.setObj a _, hR.nodup, hR.disj, hR.cell, hR.rest⟩, h7⟩, h6⟩

end Arrays

end

/-! ## Every depth -/

theorem hashOf_lt (p : Params) : ∀ {n : Nat} (y : Slot (Ty n)), hashOf p y < 18446744073709551616
  | 0, .val v => Nat.lt_trans (Nest.djb_lt _ (T := UInt8) v) (by decide)
  | _ + 1, .val v => Nat.lt_trans (Nest.djb_lt _ v) (by decide)
  | 0, .dead | 0, .unspec | _ + 1, .dead | _ + 1, .unspec => by unfold hashOf; decide

theorem code_toNat (p : Params) {n : Nat} (y : Slot (Ty n)) : (code p n y).toNat = hashOf p y := by
  unfold code
  rw [UInt64.toNat_ofNat_of_lt']
  exact hashOf_lt p y

theorem tower_eq {p : Params} (hp : p.Good) : ∀ (n : Nat) (E : Envs n),
    EqLaw (fun m env => Keeps p (n := n) m (E.put env)) Known (eqAt p n)
  | 0, E => by
    intro s env h a b ⟨v, ha⟩ ⟨u, hb⟩
    have := Nest.runs_eqP (E := fun _ _ => False) hp.valid hp.phys hp.libc (env := env) h ha hb
    unfold Runs at this
    show ∃ r e', Pg.ofM (eqP p.libc a b) s = _ ∧ _
    unfold Pg.ofM
    cases hs : eqP p.libc a b s with
    | ub => rw [hs] at this; exact this.elim
    | throw e s' => rw [hs] at this; obtain ⟨_, h, _⟩ := this; exact h.elim
    | ok x s' =>
      rw [hs] at this
      obtain ⟨env', ⟨rfl, rfl⟩, h3, -⟩ := this
      refine ⟨_, s', rfl, h3, ?_⟩
      rw [show env' a = .val v from ha, show env' b = .val u from hb, decide_eq_true_iff]
      exact ⟨fun e => e ▸ rfl, fun e => Slot.val.inj e⟩
  | n + 1, E => by
    intro w env h a b ha hb
    exact array_eq (c := level p n) (θ := code p n) (es := E.1.top) (tower_good hp n E.1) (tower_eq hp n E.1) h ha hb

theorem tower_hash {p : Params} (hp : p.Good) : ∀ (n : Nat) (E : Envs n),
    HashLaw (fun m env => Keeps p (n := n) m (E.put env)) Known (code p n) (hashAt p n)
  | 0, E => by
    intro s env h a ⟨v, ha⟩
    have := Nest.runs_hash (T := UInt8) (E := fun _ _ => False) hp.valid hp.phys (env := env) h ha
    unfold Runs at this
    show ∃ e', Pg.ofM (Rca.hash (T := UInt8) p.str a) s = _ ∧ _
    unfold Pg.ofM
    cases hs : Rca.hash (T := UInt8) p.str a s with
    | ub => rw [hs] at this; exact this.elim
    | throw e s' => rw [hs] at this; obtain ⟨_, h, _⟩ := this; exact h.elim
    | ok x s' =>
      rw [hs] at this
      obtain ⟨env', ⟨h1, rfl⟩, h3, -⟩ := this
      refine ⟨s', ?_, h3⟩
      show Res.ok _ _ = _
      congr 1
      refine UInt64.toNat_inj.mp (Eq.trans ?_ (code_toNat p (n := 0) (env' a)).symm)
      rw [h1, show env' a = .val v from ha]
      rfl
  | n + 1, E => by
    intro w env h a ⟨xs, ha, hk⟩
    obtain ⟨x, w', h1, h2, h3⟩ := inv_hash (c := level p n) (tower_good hp n E.1) (tower_hash hp n E.1) h ha hk
    have e : x = code p (n + 1) (env a) := by
      refine UInt64.toNat_inj.mp ?_
      rw [code_toNat, h3, show env a = .val xs from ha]
      show _ = djb (hashOf p) xs
      congr 1
      funext y
      exact code_toNat p y
    exact ⟨w', e ▸ h1, h2⟩

end Bdlib.Deep
