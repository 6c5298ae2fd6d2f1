import Verif.Cstr.Own
import Verif.Props.C43

/-!
# C97 Programs that keep C strings: `strdup`, `strldup`, `str_redup` and lack of memory

Proved for all programs within the contract, and all allocators: each variable has the text the specification says, owns a block of its own,
no block is lost, nothing is undefined; the process is ended, with status 5, exactly when a request is refused.

Refuted: `strdup` and `strldup` do not return a null pointer when there is no memory, as their code says; the process is gone
(`c97_refuted_null`).
-/

namespace Bdlib.Cstr
open Bdlib Bdlib.Str

/-! ## Specification -/

/-- What a variable is to the user. -/
inductive Cell
  | null
  | lit (t : Bytes)
  | own (t : Bytes)

def Cell.text : Cell → Option Bytes
  | .null => none
  | .lit t | .own t => some t

def Cell.set (T : Nat → Cell) (x : Nat) (c : Cell) : Nat → Cell := fun y => if y = x then c else T y

/-- The effect of a call; `none`: outside the contract.  `strdup` and `strldup` must not be given to a variable that owns a block (it would be
lost), `str_redup` and `free` not a literal; the pointer passed lies within a string, for `str_redup` of another variable. -/
def Spec.call (T : Nat → Cell) : Call → Option (Nat → Cell)
  | .lit x t => match T x with
    | .own _ => none
    | _ => if 0 ∉ t then some (Cell.set T x (.lit t)) else none
  | .dup x y k => match T x, (T y).text with
    | .own _, _ => none
    | _, some t => if k ≤ t.length then some (Cell.set T x (.own (t.drop k))) else none
    | _, none => none
  | .ldup x y k max => match T x, (T y).text with
    | .own _, _ => none
    | _, some t => if k ≤ t.length then some (Cell.set T x (.own ((t.drop k).take max))) else none
    | _, none => none
  | .redup x y k => match T x, (T y).text with
    | .lit _, _ => none
    | _, some t => if x ≠ y ∧ k ≤ t.length then some (Cell.set T x (.own (t.drop k))) else none
    | _, none => none
  | .redupNull x => match T x with
    | .lit _ => none
    | _ => some (Cell.set T x .null)
  | .free x => match T x with
    | .lit _ => none
    | _ => some (Cell.set T x .null)

def Spec.play : (Nat → Cell) → List Call → Option (Nat → Cell)
  | T, [] => some T
  | T, c :: cs => match Spec.call T c with
    | none => none
    | some T' => Spec.play T' cs

/-- What the call asks the allocator for. -/
def Spec.asks (T : Nat → Cell) : Call → Option Nat
  | .dup _ y k | .redup _ y k => (T y).text.map fun t => (t.drop k).length + 1
  | .ldup _ y k max => (T y).text.map fun t => ((t.drop k).take max).length + 1
  | _ => none

/-- The text a variable points at. -/
def Vars.Text (w : Vars) (x : Nat) (t : Bytes) : Prop :=
  ∃ a, w.ptr x = some a ∧ w.heap[a]? = some (some (t ++ [0])) ∧ 0 ∉ t

/-- The variables are as the specification says: null, or pointing at the text.  Who owns a block shares it with no other variable, and it is no
literal.  Nothing is lost: every block that has not been released, other than the literals, has its owner. -/
structure Vars.Are (w : Vars) (T : Nat → Cell) : Prop where
  null : ∀ x, T x = .null → w.ptr x = none
  text : ∀ x t, (T x).text = some t → w.Text x t
  apart : ∀ x y t a, T x = .own t → w.ptr x = some a → w.ptr y = some a → x = y
  sep : ∀ x t a, T x = .own t → w.ptr x = some a → a ∉ w.lits
  kept : ∀ a b, w.heap[a]? = some (some b) → a ∉ w.lits → ∃ x t, T x = .own t ∧ w.ptr x = some a

/-! ## Lemmas -/

theorem holds_text {t : Bytes} (h : 0 ∉ t) {k : Nat} (hk : k ≤ t.length) : Holds ((t ++ [0]).drop k) (t.drop k) := by
  refine ⟨fun h' => h (List.mem_of_mem_drop h'), [], ?_⟩
  rw [List.drop_append_of_le_length hk]

theorem from_text {h : Heap} {a k : Nat} {t : Bytes} (hb : h[a]? = some (some (t ++ [0]))) (hk : k ≤ t.length) :
    h.from (a, k) = .ret ((t ++ [0]).drop k) := by
  unfold Heap.from
  rw [hb]
  exact if_pos (by simp; omega)

theorem setVar_same (f : Nat → Option Nat) (x : Nat) (v : Option Nat) : setVar f x v x = v := by simp [setVar]
theorem setVar_ne (f : Nat → Option Nat) {x y : Nat} (v : Option Nat) (h : y ≠ x) : setVar f x v y = f y := by simp [setVar, h]
theorem cell_same (T : Nat → Cell) (x : Nat) (c : Cell) : Cell.set T x c x = c := by simp [Cell.set]
theorem cell_ne (T : Nat → Cell) {x y : Nat} (c : Cell) (h : y ≠ x) : Cell.set T x c y = T y := by simp [Cell.set, h]

/-- All literals are blocks that exist. -/
def LitsOk (w : Vars) : Prop := ∀ a ∈ w.lits, a < w.heap.length

/-- The block `x` owns. -/
def owned (w : Vars) (T : Nat → Cell) (x : Nat) : Option Nat :=
  match T x with
  | .own _ => w.ptr x
  | _ => none

variable {w : Vars} {T : Nat → Cell} {A : Alloc}

theorem owned_some {x i : Nat} (h : owned w T x = some i) : ∃ t, T x = .own t ∧ w.ptr x = some i := by
  unfold owned at h
  split at h
  · exact ⟨_, by assumption, h⟩
  · cases h

theorem lt_of_get {h : Heap} {a : Nat} {b : Option Bytes} (hb : h[a]? = some b) : a < h.length := (List.getElem?_eq_some_iff.1 hb).1

theorem Vars.Are.ptr_lt (hi : w.Are T) {x a : Nat} (h : w.ptr x = some a) : a < w.heap.length := by
  have : ∃ t, (T x).text = some t := by
    cases hc : T x with
    | null => rw [hi.null x hc] at h; cases h
    | lit t => exact ⟨t, rfl⟩
    | own t => exact ⟨t, rfl⟩
  obtain ⟨t, ht⟩ := this
  obtain ⟨a', h1, h2, _⟩ := hi.text x t ht
  rw [h] at h1
  cases h1
  exact lt_of_get h2

/-- `x` gets a new text, in its own block or a new one. -/
theorem Vars.Are.put (hi : w.Are T) (hl : LitsOk w) {x a : Nat} {u : Bytes} {c : Cell} {h' : Heap} {n : Nat} {lits : List Nat} (hu : 0 ∉ u)
    (hnew : h'[a]? = some (some (u ++ [0])))
    (hkeep : ∀ i, owned w T x ≠ some i → i ≠ a → h'[i]? = w.heap[i]?)
    (hrel : ∀ i, owned w T x = some i → i ≠ a → h'[i]? = some none)
    (hloc : a = w.heap.length ∨ owned w T x = some a)
    (hc : (c = .own u ∧ lits = w.lits) ∨ (c = .lit u ∧ lits = a :: w.lits)) :
    Vars.Are ⟨h', setVar w.ptr x (some a), n, lits⟩ (Cell.set T x c) := by
  have hne : ∀ y, y ≠ x → w.ptr y ≠ some a := by
    intro y hy hp
    rcases hloc with h | h
    · exact absurd (hi.ptr_lt hp) (by omega)
    · obtain ⟨t, h1, h2⟩ := owned_some h
      exact hy (hi.apart x y t a h1 h2 hp).symm
  have hct : c.text = some u := by rcases hc with ⟨rfl, _⟩ | ⟨rfl, _⟩ <;> rfl
  refine ⟨fun y hy => ?_, fun y t hy => ?_, fun y z t i hy hp hq => ?_, fun y t i hy hp => ?_, fun i b hb hnl => ?_⟩
  · by_cases e : y = x
    · rw [e, cell_same] at hy; rw [hy] at hct; cases hct
    · rw [cell_ne _ _ e] at hy
      show setVar _ _ _ _ = _
      rw [setVar_ne _ _ e]; exact hi.null y hy
  · by_cases e : y = x
    · rw [e, cell_same, hct] at hy
      cases hy
      rw [e]
      exact ⟨a, setVar_same _ _ _, hnew, hu⟩
    · rw [cell_ne _ _ e] at hy
      obtain ⟨i, h1, h2, h3⟩ := hi.text y t hy
      refine ⟨i, (setVar_ne _ _ e).trans h1, ?_, h3⟩
      show h'[i]? = _
      rw [hkeep i (fun ho => ?_) (fun hia => hne y e (hia ▸ h1))]
      · exact h2
      · obtain ⟨t', g1, g2⟩ := owned_some ho
        exact e (hi.apart x y t' i g1 g2 h1).symm
  · change setVar _ _ _ _ = _ at hp hq
    by_cases e : y = x
    · by_cases e' : z = x
      · rw [e, e']
      · rw [e, setVar_same] at hp
        cases hp
        rw [setVar_ne _ _ e'] at hq
        exact absurd hq (hne z e')
    · rw [cell_ne _ _ e] at hy
      rw [setVar_ne _ _ e] at hp
      by_cases e' : z = x
      · rw [e', setVar_same] at hq
        cases hq
        exact absurd hp (hne y e)
      · rw [setVar_ne _ _ e'] at hq
        exact hi.apart y z t i hy hp hq
  · change setVar _ _ _ _ = _ at hp
    by_cases e : y = x
    · rw [e, cell_same] at hy
      rcases hc with ⟨_, rfl⟩ | ⟨h, _⟩
      · rw [e, setVar_same] at hp
        injection hp with hp
        rw [← hp]
        rcases hloc with h | h
        · intro hm
          exact absurd (hl a hm) (by omega)
        · obtain ⟨t', h1, h2⟩ := owned_some h
          exact hi.sep x t' a h1 h2
      · rw [h] at hy; cases hy
    · rw [cell_ne _ _ e] at hy
      rw [setVar_ne _ _ e] at hp
      have := hi.sep y t i hy hp
      rcases hc with ⟨_, rfl⟩ | ⟨_, rfl⟩
      · exact this
      · intro hm
        rcases List.mem_cons.1 hm with rfl | hm
        · exact hne y e hp
        · exact this hm
  · change i ∉ lits at hnl
    change h'[i]? = _ at hb
    by_cases hia : i = a
    · rcases hc with ⟨rfl, _⟩ | ⟨_, rfl⟩
      · exact ⟨x, u, cell_same _ _ _, hia ▸ setVar_same _ _ _⟩
      · exact absurd (hia ▸ List.mem_cons_self ..) hnl
    · have hno : owned w T x ≠ some i := fun ho => by rw [hrel i ho hia] at hb; cases hb
      rw [hkeep i hno hia] at hb
      have hnl' : i ∉ w.lits := by
        rcases hc with ⟨_, rfl⟩ | ⟨_, rfl⟩
        · exact hnl
        · exact fun hm => hnl (List.mem_cons_of_mem _ hm)
      obtain ⟨y, t, g1, g2⟩ := hi.kept i b hb hnl'
      have e : y ≠ x := fun e => hno (by rw [e] at g1 g2; unfold owned; rw [g1]; exact g2)
      exact ⟨y, t, (cell_ne _ _ e).trans g1, (setVar_ne _ _ e).trans g2⟩

/-- `x` releases what it owns. -/
theorem Vars.Are.drop (hi : w.Are T) {x a : Nat} {t : Bytes} {n : Nat} (hx : T x = .own t) (hp : w.ptr x = some a) :
    Vars.Are ⟨w.heap.set a none, setVar w.ptr x none, n, w.lits⟩ (Cell.set T x .null) := by
  refine ⟨fun y hy => ?_, fun y t' hy => ?_, fun y z t' i hy hp' hq => ?_, fun y t' i hy hp' => ?_, fun i b hb hnl => ?_⟩
  · by_cases e : y = x
    · rw [e]; exact setVar_same _ _ _
    · rw [cell_ne _ _ e] at hy
      exact (setVar_ne _ _ e).trans (hi.null y hy)
  · by_cases e : y = x
    · rw [e, cell_same] at hy; cases hy
    · rw [cell_ne _ _ e] at hy
      obtain ⟨i, h1, h2, h3⟩ := hi.text y t' hy
      refine ⟨i, (setVar_ne _ _ e).trans h1, ?_, h3⟩
      show (w.heap.set a none)[i]? = _
      rw [List.getElem?_set_ne (fun (hia : a = i) => e (hi.apart x y t a hx hp (by rw [hia]; exact h1)).symm)]
      exact h2
  · change setVar _ _ _ _ = _ at hp' hq
    have e : y ≠ x := by rintro rfl; rw [setVar_same] at hp'; cases hp'
    have e' : z ≠ x := by rintro rfl; rw [setVar_same] at hq; cases hq
    rw [setVar_ne _ _ e] at hp'
    rw [setVar_ne _ _ e'] at hq
    rw [cell_ne _ _ e] at hy
    exact hi.apart y z t' i hy hp' hq
  · change setVar _ _ _ _ = _ at hp'
    have e : y ≠ x := by rintro rfl; rw [setVar_same] at hp'; cases hp'
    rw [setVar_ne _ _ e] at hp'
    rw [cell_ne _ _ e] at hy
    exact hi.sep y t' i hy hp'
  · change (w.heap.set a none)[i]? = _ at hb
    have hal := hi.ptr_lt hp
    have hia : i ≠ a := by rintro rfl; rw [List.getElem?_set_self hal] at hb; cases hb
    rw [List.getElem?_set_ne (Ne.symm hia)] at hb
    obtain ⟨y, t', g1, g2⟩ := hi.kept i b hb hnl
    have e : y ≠ x := by rintro rfl; rw [hp] at g2; cases g2; exact hia rfl
    exact ⟨y, t', (cell_ne _ _ e).trans g1, (setVar_ne _ _ e).trans g2⟩

/-- `x` was null and stays so. -/
theorem Vars.Are.idle (hi : w.Are T) {x : Nat} {n : Nat} (hx : T x = .null) :
    Vars.Are ⟨w.heap, setVar w.ptr x none, n, w.lits⟩ (Cell.set T x .null) := by
  have h1 : setVar w.ptr x none = w.ptr := by
    funext y
    by_cases e : y = x
    · rw [e, setVar_same, hi.null x hx]
    · rw [setVar_ne _ _ e]
  have h2 : Cell.set T x .null = T := by
    funext y
    by_cases e : y = x
    · rw [e, cell_same, hx]
    · rw [cell_ne _ _ e]
  rw [h1, h2]
  exact ⟨hi.null, hi.text, hi.apart, hi.sep, hi.kept⟩

/-- A fresh block for a variable that owns none. -/
theorem Vars.Are.add (hi : w.Are T) (hl : LitsOk w) {x : Nat} {u : Bytes} {c : Cell} {n : Nat} {lits : List Nat} (hu : 0 ∉ u)
    (hx : owned w T x = none) (hc : (c = .own u ∧ lits = w.lits) ∨ (c = .lit u ∧ lits = w.heap.length :: w.lits)) :
    Vars.Are ⟨w.heap ++ [some (u ++ [0])], setVar w.ptr x (some w.heap.length), n, lits⟩ (Cell.set T x c) := by
  refine hi.put hl hu ?_ (fun i _ hia => ?_) (fun i h => by rw [hx] at h; cases h) (.inl rfl) hc
  · simp
  · rcases Nat.lt_or_ge i w.heap.length with h | h
    · rw [List.getElem?_append_left h]
    · rw [List.getElem?_eq_none (by simp; omega), List.getElem?_eq_none h]

/-- The block `str_redup` puts the text in. -/
theorem redup_where {h h' : Heap} {m : Bool} {j : UInt8} {str r : Option Nat} {p : Nat × Nat} (he : strRedup h m j str (some p) = .ret (r, h')) :
    (r = some h.length ∨ r = str) ∧ h.length ≤ h'.length := by
  unfold strRedup at he
  dsimp only at he
  have bnd : ∀ {α β : Type} {e : Eff α} {f : α → Eff β} {b : β}, (e >>= f) = .ret b → ∃ a, e = .ret a ∧ f a = .ret b := by
    intro α β e f b h
    cases e with
    | ret a => exact ⟨a, rfl, h⟩
    | ub => cases h
    | exc => cases h
    | more => cases h
  obtain ⟨src, _, he⟩ := bnd he
  obtain ⟨len, _, he⟩ := bnd he
  obtain ⟨⟨a, g⟩, hr, he⟩ := bnd he
  obtain ⟨src', _, he⟩ := bnd he
  dsimp only at he
  split at he
  · cases he
  · obtain ⟨q, _, he⟩ := bnd he
    obtain ⟨b, _, he⟩ := bnd he
    cases he
    unfold Heap.realloc at hr
    cases str with
    | none => cases hr; exact ⟨.inl rfl, by simp⟩
    | some s =>
      dsimp only at hr
      split at hr
      · split at hr
        · cases hr; exact ⟨.inl rfl, by simp⟩
        · cases hr; exact ⟨.inr rfl, by simp⟩
      · cases hr

/-! ## One call -/

/-- What a call within the contract does: it is done, or the process ends with status 5, in which case what it asked for was refused. -/
theorem call_spec (hi : w.Are T) (hl : LitsOk w) {c : Call} {T' : Nat → Cell} (hc : Spec.call T c = some T') :
    if ∀ n, Spec.asks T c = some n → A.grants w.asked n = true then
      ∃ w', call A w c = .ok w' ∧ w'.Are T' ∧ LitsOk w' ∧ w'.asked = w.asked + (if (Spec.asks T c).isSome then 1 else 0)
    else call A w c = .exit 5 := by
  cases c with
  | lit x t =>
    rw [if_pos (fun n h => by cases h)]
    have hx : owned w T x = none ∧ 0 ∉ t ∧ T' = Cell.set T x (.lit t) := by
      unfold owned
      cases h : T x with
      | own _ => simp [Spec.call, h] at hc
      | null => simp only [Spec.call, h] at hc; split at hc <;> cases hc; exact ⟨rfl, by assumption, rfl⟩
      | lit _ => simp only [Spec.call, h] at hc; split at hc <;> cases hc; exact ⟨rfl, by assumption, rfl⟩
    obtain ⟨h1, h2, rfl⟩ := hx
    refine ⟨_, rfl, hi.add hl h2 h1 (.inr ⟨rfl, rfl⟩), fun a ha => ?_, rfl⟩
    rcases List.mem_cons.1 ha with rfl | ha
    · simp
    · have := hl a ha
      show a < (w.heap ++ _).length
      simp
      omega
  | dup x y k =>
    have hx : ∃ t, (T y).text = some t ∧ owned w T x = none ∧ k ≤ t.length ∧ T' = Cell.set T x (.own (t.drop k)) := by
      unfold owned
      cases hy : (T y).text with
      | none => cases h : T x <;> simp [Spec.call, h, hy] at hc
      | some t =>
        cases h : T x with
        | own _ => simp [Spec.call, h] at hc
        | null => simp only [Spec.call, h, hy] at hc; split at hc <;> cases hc; exact ⟨t, rfl, rfl, by assumption, rfl⟩
        | lit _ => simp only [Spec.call, h, hy] at hc; split at hc <;> cases hc; exact ⟨t, rfl, rfl, by assumption, rfl⟩
    obtain ⟨t, hy, h1, hk, rfl⟩ := hx
    obtain ⟨a, g1, g2, g3⟩ := hi.text y t hy
    have hh := holds_text g3 hk
    have e : call A w (.dup x y k) = if A.grants w.asked ((t.drop k).length + 1) then
        .ok ⟨w.heap ++ [some (t.drop k ++ [0])], setVar w.ptr x (some w.heap.length), w.asked + 1, w.lits⟩ else .exit 5 := by
      show dupTo A w x y k = _
      unfold dupTo
      rw [g1]
      dsimp only
      rw [from_text g2 hk]
      dsimp only [Fate.of]
      rw [strlen_spec hh]
      dsimp only
      rw [c43_strdup hh]
    have ea : Spec.asks T (.dup x y k) = some ((t.drop k).length + 1) := by simp [Spec.asks, hy]
    rw [e, ea]
    by_cases hg : A.grants w.asked ((t.drop k).length + 1) = true
    · rw [if_pos (fun n h => by cases h; exact hg), if_pos hg]
      refine ⟨_, rfl, hi.add hl hh.1 h1 (.inl ⟨rfl, rfl⟩), fun a ha => ?_, rfl⟩
      have := hl a ha
      show a < (w.heap ++ _).length
      simp
      omega
    · rw [if_neg (fun h => hg (h _ rfl)), if_neg hg]
  | ldup x y k max =>
    have hx : ∃ t, (T y).text = some t ∧ owned w T x = none ∧ k ≤ t.length ∧ T' = Cell.set T x (.own ((t.drop k).take max)) := by
      unfold owned
      cases hy : (T y).text with
      | none => cases h : T x <;> simp [Spec.call, h, hy] at hc
      | some t =>
        cases h : T x with
        | own _ => simp [Spec.call, h] at hc
        | null => simp only [Spec.call, h, hy] at hc; split at hc <;> cases hc; exact ⟨t, rfl, rfl, by assumption, rfl⟩
        | lit _ => simp only [Spec.call, h, hy] at hc; split at hc <;> cases hc; exact ⟨t, rfl, rfl, by assumption, rfl⟩
    obtain ⟨t, hy, h1, hk, rfl⟩ := hx
    obtain ⟨a, g1, g2, g3⟩ := hi.text y t hy
    have hh := holds_text g3 hk
    have hlen : (if (t.drop k).length < max then (t.drop k).length else max) = ((t.drop k).take max).length := by
      rw [List.length_take]; split <;> omega
    have e : call A w (.ldup x y k max) = if A.grants w.asked (((t.drop k).take max).length + 1) then
        .ok ⟨w.heap ++ [some ((t.drop k).take max ++ [0])], setVar w.ptr x (some w.heap.length), w.asked + 1, w.lits⟩ else .exit 5 := by
      show ldupTo A w x y k max = _
      unfold ldupTo
      rw [g1]
      dsimp only
      rw [from_text g2 hk]
      dsimp only [Fate.of]
      rw [strlen_spec hh]
      dsimp only
      rw [c43_strldup hh, hlen]
    have ea : Spec.asks T (.ldup x y k max) = some (((t.drop k).take max).length + 1) := by simp [Spec.asks, hy]
    rw [e, ea]
    by_cases hg : A.grants w.asked (((t.drop k).take max).length + 1) = true
    · rw [if_pos (fun n h => by cases h; exact hg), if_pos hg]
      refine ⟨_, rfl, hi.add hl (fun h => hh.1 (List.mem_of_mem_take h)) h1 (.inl ⟨rfl, rfl⟩), fun a ha => ?_, rfl⟩
      have := hl a ha
      show a < (w.heap ++ _).length
      simp
      omega
    · rw [if_neg (fun h => hg (h _ rfl)), if_neg hg]
  | redup x y k =>
    have hx : ∃ t, (T y).text = some t ∧ owned w T x = w.ptr x ∧ x ≠ y ∧ k ≤ t.length ∧ T' = Cell.set T x (.own (t.drop k)) := by
      unfold owned
      cases hy : (T y).text with
      | none => cases h : T x <;> simp [Spec.call, h, hy] at hc
      | some t =>
        cases h : T x with
        | lit _ => simp [Spec.call, h] at hc
        | null =>
          simp only [Spec.call, h, hy] at hc
          split at hc <;> cases hc
          rename_i hh
          exact ⟨t, rfl, (hi.null x h).symm, hh.1, hh.2, rfl⟩
        | own _ =>
          simp only [Spec.call, h, hy] at hc
          split at hc <;> cases hc
          rename_i hh
          exact ⟨t, rfl, rfl, hh.1, hh.2, rfl⟩
    obtain ⟨t, hy, h1, hne, hk, rfl⟩ := hx
    obtain ⟨a, g1, g2, g3⟩ := hi.text y t hy
    have hh := holds_text g3 hk
    have hpt : PointsTo w.heap (a, k) (t.drop k) := ⟨_, g2, by simp; omega, hh⟩
    have hs : ∀ i, w.ptr x = some i → i ≠ a ∧ ∃ b, w.heap[i]? = some (some b) := by
      intro i hp
      rw [← h1] at hp
      obtain ⟨u, k1, k2⟩ := owned_some hp
      refine ⟨fun e => hne (hi.apart x y u i k1 k2 (e ▸ g1)), ?_⟩
      obtain ⟨i', k3, k4, _⟩ := hi.text x u (by rw [k1]; rfl)
      rw [k2] at k3
      cases k3
      exact ⟨_, k4⟩
    obtain ⟨r, h', hr, e1, e2, e3⟩ := c43_redup_partial hpt hs (A.moves w.asked) (A.junk w.asked)
    obtain ⟨w1, w2⟩ := redup_where hr
    have e : call A w (.redup x y k) = if A.grants w.asked ((t.drop k).length + 1) then
        .ok ⟨h', setVar w.ptr x (some r), w.asked + 1, w.lits⟩ else .exit 5 := by
      show redupTo A w x y k = _
      unfold redupTo
      rw [g1]
      dsimp only
      rw [from_text g2 hk]
      dsimp only [Fate.of]
      rw [strlen_spec hh]
      dsimp only
      rw [hr]
    have ea : Spec.asks T (.redup x y k) = some ((t.drop k).length + 1) := by simp [Spec.asks, hy]
    rw [e, ea]
    by_cases hg : A.grants w.asked ((t.drop k).length + 1) = true
    · rw [if_pos (fun n h => by cases h; exact hg), if_pos hg]
      refine ⟨_, rfl, hi.put hl hh.1 e1 (fun i hi' => ?_) (fun i hi' => ?_) ?_ (.inl ⟨rfl, rfl⟩), fun a ha => ?_, rfl⟩
      · exact e2 i (fun e => hi' (h1.trans e.symm))
      · exact e3 i (h1.symm.trans hi')
      · rcases w1 with h | h
        · cases h; exact .inl rfl
        · exact .inr (h1.trans h.symm)
      · have := hl a ha
        show a < h'.length
        omega
    · rw [if_neg (fun h => hg (h _ rfl)), if_neg hg]
  | redupNull x =>
    rw [if_pos (fun n h => by cases h)]
    cases h : T x with
    | lit _ => simp [Spec.call, h] at hc
    | null =>
      simp only [Spec.call, h] at hc
      cases hc
      refine ⟨⟨w.heap, setVar w.ptr x none, w.asked, w.lits⟩, ?_, hi.idle h, hl, rfl⟩
      show redupNull A w x = _
      unfold redupNull
      rw [hi.null x h, c43_redup_null_null]
      rfl
    | own t =>
      simp only [Spec.call, h] at hc
      cases hc
      obtain ⟨a, g1, g2, _⟩ := hi.text x t (by rw [h]; rfl)
      refine ⟨⟨w.heap.set a none, setVar w.ptr x none, w.asked, w.lits⟩, ?_, hi.drop h g1, fun i hm => ?_, rfl⟩
      · show redupNull A w x = _
        unfold redupNull
        rw [g1, c43_redup_null _ _ _ a _ g2]
        rfl
      · show i < (w.heap.set a none).length
        rw [List.length_set]
        exact hl i hm
  | free x =>
    rw [if_pos (fun n h => by cases h)]
    cases h : T x with
    | lit _ => simp [Spec.call, h] at hc
    | null =>
      simp only [Spec.call, h] at hc
      cases hc
      have hT : Cell.set T x .null = T := by
        funext y
        by_cases e : y = x
        · rw [e, cell_same, h]
        · rw [cell_ne _ _ e]
      rw [hT]
      refine ⟨w, ?_, hi, hl, rfl⟩
      show freeVar w x = _
      unfold freeVar
      rw [hi.null x h]
    | own t =>
      simp only [Spec.call, h] at hc
      cases hc
      obtain ⟨a, g1, g2, _⟩ := hi.text x t (by rw [h]; rfl)
      refine ⟨⟨w.heap.set a none, setVar w.ptr x none, w.asked, w.lits⟩, ?_, hi.drop h g1, fun i hm => ?_, rfl⟩
      · show freeVar w x = _
        unfold freeVar
        rw [g1]
        dsimp only [Heap.free]
        rw [g2]
        rfl
      · show i < (w.heap.set a none).length
        rw [List.length_set]
        exact hl i hm

/-! ## Programs -/

/-- Whether the allocator grants all requests of the program, which is computed from the texts alone. -/
def Spec.Granted (A : Alloc) : (Nat → Cell) → Nat → List Call → Prop
  | _, _, [] => True
  | T, n, c :: cs => (∀ k, Spec.asks T c = some k → A.grants n k = true) ∧
    ∀ T', Spec.call T c = some T' → Spec.Granted A T' (n + if (Spec.asks T c).isSome then 1 else 0) cs

theorem play_spec (hi : w.Are T) (hl : LitsOk w) {cs : List Call} {T' : Nat → Cell} (hc : Spec.play T cs = some T') :
    (Spec.Granted A T w.asked cs → ∃ w', play A w cs = .ok w' ∧ w'.Are T') ∧
    (¬ Spec.Granted A T w.asked cs → play A w cs = .exit 5) := by
  induction cs generalizing w T with
  | nil => cases hc; exact ⟨fun _ => ⟨w, rfl, hi⟩, fun h => absurd trivial h⟩
  | cons c cs ih =>
    unfold Spec.play at hc
    cases h1 : Spec.call T c with
    | none => rw [h1] at hc; cases hc
    | some T1 =>
      rw [h1] at hc
      have hs := call_spec (A := A) hi hl h1
      unfold play
      by_cases hg : ∀ n, Spec.asks T c = some n → A.grants w.asked n = true
      · rw [if_pos hg] at hs
        obtain ⟨w1, g1, g2, g3, g4⟩ := hs
        rw [g1]
        have := ih g2 g3 hc
        rw [g4] at this
        refine ⟨fun h => this.1 (h.2 T1 h1), fun h => this.2 fun h' => h ⟨hg, fun T2 h2 => ?_⟩⟩
        rw [h1] at h2
        cases h2
        exact h'
      · rw [if_neg hg] at hs
        rw [hs]
        exact ⟨fun h => absurd h.1 hg, fun _ => rfl⟩

/-- **C97** Every program within the contract, with every allocator: if all requests are granted, each variable is null or has the text the
specification says, those with blocks of their own have different ones, and no block is lost; if one is refused, the process ends with status 5.
Nothing is undefined.

Partial: contract as in `Spec.call`; `str_redup` from the variable itself is C43's refutation; the process cannot go on without memory
(`c97_refuted_null`). -/
theorem c97_programs_partial (A : Alloc) {cs : List Call} {T : Nat → Cell} (hc : Spec.play (fun _ => .null) cs = some T) :
    (Spec.Granted A (fun _ => .null) 0 cs → ∃ w, play A {} cs = .ok w ∧ w.Are T) ∧
    (¬ Spec.Granted A (fun _ => .null) 0 cs → play A {} cs = .exit 5) :=
  play_spec (w := {}) (T := fun _ => .null) ⟨fun _ _ => rfl, fun _ _ h => (by cases h), fun _ _ _ _ h => (by cases h), fun _ _ _ h => (by cases h), fun _ _ h => (by cases h)⟩
    (fun _ h => (by cases h)) hc

/-- **C97** When all variables are null again, every block has been released, except the literals. -/
theorem c97_nothing_left (A : Alloc) {cs : List Call} {T : Nat → Cell} (hc : Spec.play (fun _ => .null) cs = some T) (hT : ∀ x t, T x ≠ .own t)
    {w : Vars} (hw : play A {} cs = .ok w) : ∀ a b, w.heap[a]? = some (some b) → a ∈ w.lits := by
  obtain ⟨h1, h2⟩ := c97_programs_partial A hc
  by_cases hg : Spec.Granted A (fun _ => .null) 0 cs
  · obtain ⟨w', h3, h4⟩ := h1 hg
    rw [hw] at h3
    cases h3
    intro a b hb
    by_cases hm : a ∈ w.lits
    · exact hm
    · obtain ⟨x, t, h5, _⟩ := h4.kept a b hb hm
      exact absurd h5 (hT x t)
  · rw [hw] at h2; cases h2 hg

/-- **C97 refuted** `strdup` is written to return a null pointer without memory.  It does not: in every state of every program, if the request is
refused, the process is gone. -/
theorem c97_refuted_null {x y k : Nat} {t : Bytes} (hy : w.Text y t) (hk : k ≤ t.length)
    (hg : A.grants w.asked ((t.drop k).length + 1) = false) : dupTo A w x y k = .exit 5 := by
  obtain ⟨a, g1, g2, g3⟩ := hy
  have hh := holds_text g3 hk
  unfold dupTo
  rw [g1]
  dsimp only
  rw [from_text g2 hk]
  dsimp only [Fate.of]
  rw [strlen_spec hh]
  dsimp only
  rw [if_neg (by rw [hg]; simp)]

/-! ## Cases -/

def plenty : Alloc := ⟨fun _ _ => true, fun n => n % 2 = 0, fun _ => 7⟩
/-- Three requests, then no more. -/
def scarce : Alloc := ⟨fun n _ => n < 3, fun _ => true, fun _ => 7⟩

/-- `a = "hello"; b = strdup(a); c = strldup(a + 1, 2); str_redup(&b, c); str_redup(&c, a); free(b);` -/
def prog1 : List Call := [.lit 0 [104, 101, 108, 108, 111], .dup 1 0 0, .ldup 2 0 1 2, .redup 1 2 0, .redup 2 0 0, .free 1]

example : ∃ T, Spec.play (fun _ => .null) prog1 = some T ∧ T 1 = .null ∧ T 2 = .own [104, 101, 108, 108, 111] := ⟨_, rfl, rfl, rfl⟩
example : ∃ w, play plenty {} prog1 = .ok w ∧ w.ptr 1 = none ∧ w.heap.map Option.isSome = [true, false, true, false] := ⟨_, rfl, rfl, rfl⟩
example : play scarce {} prog1 = .exit 5 := rfl
example := c97_programs_partial plenty (cs := prog1) rfl
example := c97_nothing_left plenty (cs := [.lit 0 [104], .dup 1 0 0, .redup 2 1 0, .redupNull 1, .free 2]) rfl (fun x t h => by
  unfold Cell.set at h
  repeat' split at h
  all_goals cases h) rfl
/-- The fourth request is refused. -/
example : dupTo scarce ⟨[some [104, 0]], fun x => if x = 0 then some 0 else none, 3, []⟩ 1 0 0 = .exit 5 :=
  c97_refuted_null (t := [104]) ⟨0, rfl, rfl, by decide⟩ (by decide) rfl

end Bdlib.Cstr
