import Verif.Tcl.Order
import Verif.Props.C56

/-!
# C56 in whatever order the compiler makes the arguments

The indices of `indices.h` are 0, 1, 2, ..., so each parameter gets its word; and for conversions without side effects (as the library's are)
the order in which C++ makes the arguments does not matter, except which of several errors the script gets.
-/

namespace Bdlib.Tcl
open Bdlib Bdlib.Str

variable {O P R : Type}

theorem indicesImpl_eq : ∀ (n : Nat) (is : List Nat), indicesImpl n is = List.range n ++ is
  | 0, is => rfl
  | n + 1, is => by
    rw [indicesImpl, indicesImpl_eq n, List.range_succ, List.append_assoc]
    rfl

/-- **C56** `make_indices<n>()` are 0, ..., n - 1, in this order. -/
theorem c56_indices (n : Nat) : makeIndices n = List.range n := by
  rw [makeIndices, indicesImpl_eq, List.append_nil]

theorem packs_get {params : List ((O → Except Bytes P) × P)} {k : Nat} (h : k < params.length) :
    (packs params)[k]? = some (params[k], k) := by
  unfold packs
  rw [c56_indices, List.getElem?_eq_getElem (by simp; omega)]
  simp

/-- The `k`-th argument is right. -/
def RightArg (params : List ((O → Except Bytes P) × P)) (ws : List O) (k : Nat) (a : P) : Prop :=
  ∃ p, params[k]? = some p ∧ match ws[k]? with
    | some w => p.1 w = .ok a
    | none => a = p.2

theorem passed_right {params : List ((O → Except Bytes P) × P)} {ws : List O} {as : List P} (h : Passed params ws as) :
    as.length = params.length ∧ ∀ (k : Nat) (hk : k < as.length), RightArg params ws k as[k] := by
  induction h with
  | done => exact ⟨rfl, nofun⟩
  | word p ps w ws a as hp t ih =>
    refine ⟨by simp [ih.1], fun k hk => ?_⟩
    cases k with
    | zero => exact ⟨p, rfl, hp⟩
    | succ k => exact ih.2 k (by simpa using hk)
  | dflt p ps as t ih =>
    refine ⟨by simp [ih.1], fun k hk => ?_⟩
    cases k with
    | zero => exact ⟨p, rfl, rfl⟩
    | succ k =>
      obtain ⟨q, h1, h2⟩ := ih.2 k (by simpa using hk)
      exact ⟨q, h1, h2⟩

theorem passed_of : ∀ {params : List ((O → Except Bytes P) × P)} {ws : List O}, (∀ k, k < params.length → ∃ a, RightArg params ws k a) →
    ∃ as, Passed params ws as
  | [], ws, _ => ⟨[], .done ws⟩
  | p :: ps, [], h => by
    obtain ⟨as, has⟩ := passed_of (params := ps) (ws := []) fun k hk => by
      obtain ⟨a, q, h1, h2⟩ := h (k + 1) (by simpa using hk)
      exact ⟨a, q, h1, h2⟩
    exact ⟨_, .dflt p ps as has⟩
  | p :: ps, w :: ws, h => by
    obtain ⟨a, q, h1, h2⟩ := h 0 (by simp)
    cases h1
    obtain ⟨as, has⟩ := passed_of (params := ps) (ws := ws) fun k hk => by
      obtain ⟨a, q, h1, h2⟩ := h (k + 1) (by simpa using hk)
      exact ⟨a, q, h1, h2⟩
    exact ⟨_, .word p ps w ws a as h2 has⟩

/-- What making one argument gives. -/
theorem argument_eq (name : O) (ws : List O) (p : (O → Except Bytes P) × P) (k : Nat) :
    argument p k (name :: ws) = .ret (match ws[k]? with
      | some w => p.1 w
      | none => .ok p.2) := by
  unfold argument
  cases hw : ws[k]? with
  | none =>
    rw [if_neg (by have := List.getElem?_eq_none_iff.1 hw; simp; omega)]
    rfl
  | some w =>
    obtain ⟨hk, e⟩ := List.getElem?_eq_some_iff.1 hw
    rw [if_pos (by simp; omega), rd_lt (by simp; omega)]
    simp only [Eff.ret_bind, Eff.pure_eq, List.getElem_cons_succ, e]

theorem makeIn_cons {params : List ((O → Except Bytes P) × P)} {name : O} {ws : List O} {k : Nat} (hk : k < params.length) (ks : List Nat) (m : Made P) :
    makeIn (packs params) (name :: ws) (k :: ks) m = match (match ws[k]? with
      | some w => params[k].1 w
      | none => .ok params[k].2) with
      | .error e => .ret (.error e)
      | .ok a => makeIn (packs params) (name :: ws) ks fun j => if j = k then some a else m j := by
  rw [makeIn, packs_get hk]
  dsimp only
  rw [argument_eq]
  simp only [Eff.ret_bind]
  rfl

theorem makeIn_ok {params : List ((O → Except Bytes P) × P)} (name : O) {ws : List O} {as : List P} (h : Passed params ws as) :
    ∀ (order : List Nat) (m : Made P), (∀ k ∈ order, k < params.length) → (∀ k a, m k = some a → as[k]? = some a) →
    ∃ m', makeIn (packs params) (name :: ws) order m = .ret (.ok m') ∧ (∀ k a, m' k = some a → as[k]? = some a) ∧
      ∀ k, k ∈ order ∨ m k ≠ none → m' k ≠ none
  | [], m, _, hm => ⟨m, rfl, hm, fun k hk => hk.resolve_left (by simp)⟩
  | k :: ks, m, ho, hm => by
    have hk := ho k List.mem_cons_self
    obtain ⟨hl, hr⟩ := passed_right h
    obtain ⟨q, h1, h2⟩ := hr k (by omega)
    rw [List.getElem?_eq_getElem hk] at h1
    cases h1
    rw [makeIn_cons hk]
    have hv : (match ws[k]? with
      | some w => params[k].1 w
      | none => .ok params[k].2) = .ok as[k] := by
      cases hw : ws[k]? with
      | none => rw [hw] at h2; exact congrArg _ h2.symm
      | some w => rw [hw] at h2; exact h2
    rw [hv]
    obtain ⟨m', e, g1, g2⟩ := makeIn_ok name h ks (fun j => if j = k then some as[k] else m j) (fun j hj => ho j (List.mem_cons_of_mem _ hj)) (by
      intro j a hj
      split at hj
      · rename_i e; cases hj; subst e; exact List.getElem?_eq_getElem (by omega)
      · exact hm j a hj)
    refine ⟨m', e, g1, fun j hj => g2 j ?_⟩
    rcases hj with hj | hj
    · rcases List.mem_cons.1 hj with rfl | hj
      · right; rw [if_pos rfl]; nofun
      · exact .inl hj
    · right
      split
      · nofun
      · exact hj

theorem gather_ok {m : Made P} {as : List P} : ∀ (ks : List Nat), (∀ k ∈ ks, m k = as[k]? ∧ m k ≠ none) →
    ∃ bs, gather m ks = some bs ∧ bs.map some = ks.map (as[·]?)
  | [], _ => ⟨[], rfl, rfl⟩
  | k :: ks, h => by
    obtain ⟨bs, e1, e2⟩ := gather_ok ks fun j hj => h j (List.mem_cons_of_mem _ hj)
    obtain ⟨h1, h2⟩ := h k List.mem_cons_self
    cases hm : m k with
    | none => exact absurd hm h2
    | some a =>
      refine ⟨a :: bs, by rw [gather, hm, e1], ?_⟩
      rw [List.map_cons, List.map_cons, e2, ← h1, hm]

theorem range_getElem? (as : List P) : (List.range as.length).map (as[·]?) = as.map some := by
  refine List.ext_getElem (by simp) fun i h1 h2 => ?_
  have h1 : i < as.length := by simpa using h1
  simp [List.getElem?_eq_getElem h1]

/-- **C56** In whatever order the arguments are made: if the number of words is right and they can be converted, the function runs, once,
with the words converted in order and default values for those left out. -/
theorem c56_order_runs (order : List Nat) (str : O → Bytes) (c : Cmd O P R) (name : O) (ws : List O)
    (ho : order.Perm (List.range c.params.length)) (h : c.min ≤ ws.length ∧ ws.length ≤ c.max) (as : List P) (ha : Passed c.params ws as) :
    dispatchIn order str c (name :: ws) = .ret (some as, match c.fn as with
      | .ret r => .ok r
      | .throwString s => .error s
      | .throwOther => .error "Unhandled exception.".toUTF8.data.toList) := by
  have hs : sub64 (name :: ws).length 1 = ws.length := by
    unfold sub64
    rw [if_pos (by simp)]
    simp
  have hl := (passed_right ha).1
  obtain ⟨m', e, g1, g2⟩ := makeIn_ok name ha order (fun _ => none) (fun k hk => by simpa using ho.mem_iff.1 hk) nofun
  have hg : ∀ k ∈ List.range c.params.length, m' k = as[k]? ∧ m' k ≠ none := by
    intro k hk
    have := g2 k (.inl (ho.mem_iff.2 hk))
    cases hm : m' k with
    | none => exact absurd hm this
    | some a => exact ⟨(g1 k a hm).symm, nofun⟩
  obtain ⟨bs, e1, e2⟩ := gather_ok _ hg
  rw [← hl, range_getElem?] at e2
  have : bs = as := by
    have h1 := congrArg (List.filterMap id) e2
    simpa [List.filterMap_map] using h1
  subst this
  unfold dispatchIn
  rw [rd_lt (by simp)]
  simp only [Eff.ret_bind]
  rw [hs, if_neg (by omega), e]
  simp only [Eff.ret_bind]
  rw [e1]
  dsimp only
  cases c.fn bs <;> rfl

theorem makeIn_error {params : List ((O → Except Bytes P) × P)} (name : O) {ws : List O} {k₀ : Nat} {w₀ : O} {e₀ : Bytes} (h0 : k₀ < params.length)
    (hw : ws[k₀]? = some w₀) (he : params[k₀].1 w₀ = .error e₀) :
    ∀ (order : List Nat) (m : Made P), (∀ k ∈ order, k < params.length) → k₀ ∈ order →
    ∃ p w e, p ∈ params ∧ w ∈ ws ∧ p.1 w = .error e ∧ makeIn (packs params) (name :: ws) order m = .ret (.error e)
  | [], _, _, hk => absurd hk (by simp)
  | k :: ks, m, ho, hk => by
    have hk' := ho k List.mem_cons_self
    rw [makeIn_cons hk']
    cases hv : ws[k]? with
    | none =>
      have hne : k₀ ≠ k := by rintro rfl; rw [hw] at hv; cases hv
      exact makeIn_error name h0 hw he ks _ (fun j hj => ho j (List.mem_cons_of_mem _ hj)) ((List.mem_cons.1 hk).resolve_left hne)
    | some w =>
      dsimp only
      cases hc : params[k].1 w with
      | error e => exact ⟨params[k], w, e, List.getElem_mem hk', List.mem_of_getElem? hv, hc, rfl⟩
      | ok a =>
        have hne : k₀ ≠ k := by rintro rfl; rw [hw] at hv; cases hv; rw [he] at hc; cases hc
        exact makeIn_error name h0 hw he ks _ (fun j hj => ho j (List.mem_cons_of_mem _ hj)) ((List.mem_cons.1 hk).resolve_left hne)

/-- **C56** In whatever order: if some word cannot be converted, the function does not run and the script gets the error of such a word. -/
theorem c56_order_unconvertible (order : List Nat) (str : O → Bytes) (c : Cmd O P R) (name : O) (ws : List O)
    (ho : order.Perm (List.range c.params.length)) (h : c.min ≤ ws.length ∧ ws.length ≤ c.max) (ha : ¬ ∃ as, Passed c.params ws as) :
    ∃ p w e, p ∈ c.params ∧ w ∈ ws ∧ p.1 w = .error e ∧ dispatchIn order str c (name :: ws) = .ret (none, .error e) := by
  have hs : sub64 (name :: ws).length 1 = ws.length := by
    unfold sub64
    rw [if_pos (by simp)]
    simp
  have hx : ∃ (k : Nat) (hk : k < c.params.length) (w : O) (e : Bytes), ws[k]? = some w ∧ c.params[k].1 w = .error e := by
    refine Classical.byContradiction fun hn => ha (passed_of fun k hk => ?_)
    cases hw : ws[k]? with
    | none => exact ⟨c.params[k].2, _, List.getElem?_eq_getElem hk, by rw [hw]⟩
    | some w =>
      cases hc : c.params[k].1 w with
      | error e => exact absurd ⟨k, hk, w, e, hw, hc⟩ hn
      | ok a => exact ⟨a, _, List.getElem?_eq_getElem hk, by rw [hw]; exact hc⟩
  obtain ⟨k, hk, w, e, h1, h2⟩ := hx
  obtain ⟨p, w, e, a1, a2, a3, a4⟩ := makeIn_error name hk h1 h2 order (fun _ => none) (fun k hk => by simpa using ho.mem_iff.1 hk)
    (ho.mem_iff.2 (by simpa using hk))
  refine ⟨p, w, e, a1, a2, a3, ?_⟩
  unfold dispatchIn
  rw [rd_lt (by simp)]
  simp only [Eff.ret_bind]
  rw [hs, if_neg (by omega), a4]
  rfl

/-- **C56** With a wrong number of words nothing is converted; with a right one the leftmost order is `dispatch`. -/
theorem c56_order_wrong (order : List Nat) (str : O → Bytes) (c : Cmd O P R) (name : O) (ws : List O) (h : ¬ (c.min ≤ ws.length ∧ ws.length ≤ c.max)) :
    dispatchIn order str c (name :: ws) = dispatch str c (name :: ws) := by
  have hs : sub64 (name :: ws).length 1 = ws.length := by
    unfold sub64
    rw [if_pos (by simp)]
    simp
  unfold dispatchIn dispatch
  rw [rd_lt (by simp)]
  simp only [Eff.ret_bind]
  rw [hs, if_pos (by omega), if_pos (by omega)]

/-- Right to left, as many compilers do: the same arguments; with two bad words the error of the second. -/
def picky (e : UInt8) (n : Nat) : Except Bytes Nat := if n < 100 then .ok n else .error [e]
def pairCmd : Cmd Nat Nat Nat := createCommand [(picky 49, 0), (picky 50, 10)] (fun a => .ret a.sum) none 1

example : dispatchIn [1, 0] (fun _ => [97]) pairCmd [0, 5, 6] = .ret (some [5, 6], .ok 11) := by rfl
example : dispatchIn [1, 0] (fun _ => [97]) pairCmd [0, 500, 600] = .ret (none, .error [50]) := by rfl
example : dispatchIn [0, 1] (fun _ => [97]) pairCmd [0, 500, 600] = .ret (none, .error [49]) := by rfl
example := c56_order_runs [1, 0] (fun _ => [97]) pairCmd 0 [5] (List.Perm.swap 0 1 []) (by decide) [5, 10]
  (.word _ _ _ _ _ _ rfl (.dflt _ _ _ (.done _)))
example := c56_order_unconvertible [1, 0] (fun _ => [97]) pairCmd 0 [5, 600] (List.Perm.swap 0 1 []) (by decide) (by
  rintro ⟨as, h⟩
  cases h with
  | word _ _ _ _ _ _ _ t => cases t with
    | word _ _ _ _ _ _ h _ => cases h)
example := c56_order_wrong [1, 0] (fun _ => [97]) pairCmd 0 [5, 6, 7] (by decide)

end Bdlib.Tcl
