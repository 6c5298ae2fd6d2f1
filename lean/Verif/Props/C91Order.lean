import Verif.Tcl.Order
import Verif.Props.C56Order
import Verif.Props.C91

/-!
# C91 in whatever order the compiler makes the arguments

The conversions may have effects here, so the order can be seen; still no exception gets out, every argument is made at most once, and without an
exception each exactly once.
-/

namespace Bdlib.Tcl
open Bdlib Bdlib.Str Bdlib.Spec

variable {S O P R : Type}

/-- **C91** While there is memory, no exception leaves a command, in whatever order its arguments are made. -/
theorem c91_order_contained_partial (order : List Nat) (str : O → Bytes) (c : FCmd S O P R) (objv : List O) :
    Contained (dispatchInF plenty order str c objv) := by
  unfold dispatchInF
  cases objv with
  | nil => exact contained_undef
  | cons o ws =>
    refine contained_bind contained_alloc fun _ => ?_
    split
    · exact contained_bind (contained_wrongArgs _ _ _ _) fun _ => contained_pure _
    · refine contained_catching _ fun e => ?_
      cases e with
      | text b => exact contained_pure _
      | other => exact contained_bind contained_alloc fun _ => contained_pure _

/-- The effects of making the arguments: those of the single conversions (or default values), each once, in this order, and then what is made
stays. -/
inductive MadeBy (params : List ((O → X S P) × X S P)) (ws : List O) : List Nat → Nat → S → List (Nat × P) → Nat → S → Prop
  | done (n s) : MadeBy params ws [] n s [] n s
  | more {k : Nat} {ks : List Nat} {p : (O → X S P) × X S P} {n n1 n2 : Nat} {s s1 s2 : S} {a : P} {as : List (Nat × P)} (hp : params[k]? = some p)
      (h : (match ws[k]? with | some w => p.1 w | none => p.2) n s = .ret a n1 s1) (t : MadeBy params ws ks n1 s1 as n2 s2) :
      MadeBy params ws (k :: ks) n s ((k, a) :: as) n2 s2

theorem packsF_get {params : List ((O → X S P) × X S P)} {k : Nat} {p : (O → X S P) × X S P} (h : params[k]? = some p) :
    (params.zip (makeIndices params.length))[k]? = some (p, k) := by
  obtain ⟨hk, e⟩ := List.getElem?_eq_some_iff.1 h
  rw [c56_indices, List.getElem?_eq_getElem (by simp; omega)]
  simp [e]

theorem argumentF_eq (name : O) (ws : List O) (p : (O → X S P) × X S P) (k : Nat) :
    argumentF p k (name :: ws) = match ws[k]? with | some w => p.1 w | none => p.2 := by
  unfold argumentF
  cases hw : ws[k]? with
  | none => rw [if_neg (by have := List.getElem?_eq_none_iff.1 hw; simp; omega)]
  | some w =>
    obtain ⟨hk, e⟩ := List.getElem?_eq_some_iff.1 hw
    rw [if_pos (by simp; omega), List.getElem?_cons_succ, hw]

theorem makeInF_eq {params : List ((O → X S P) × X S P)} (name : O) {ws : List O} {order : List Nat} {n n' : Nat} {s s' : S} {as : List (Nat × P)}
    (h : MadeBy params ws order n s as n' s') : ∀ m : Made P, makeInF (params.zip (makeIndices params.length)) (name :: ws) order m n s =
      .ret (as.foldl (fun m x j => if j = x.1 then some x.2 else m j) m) n' s' := by
  induction h with
  | done => intro m; rfl
  | more hp h t ih =>
    intro m
    rw [makeInF, packsF_get hp]
    dsimp only
    rw [argumentF_eq, X.bind_ret h, ih]
    rfl

theorem foldl_keep (k : Nat) : ∀ (as : List (Nat × P)) (m : Made P), k ∉ as.map Prod.fst →
    as.foldl (fun m x j => if j = x.1 then some x.2 else m j) m k = m k
  | [], _, _ => rfl
  | x :: as, m, h => by
    rw [List.foldl_cons, foldl_keep k as _ (fun hc => h (List.mem_cons_of_mem _ hc)), if_neg (fun e => h (by rw [e]; exact List.mem_cons_self))]

theorem foldl_get {k : Nat} {a : P} : ∀ (as : List (Nat × P)) (m : Made P), (as.map Prod.fst).Nodup → (k, a) ∈ as →
    as.foldl (fun m x j => if j = x.1 then some x.2 else m j) m k = some a
  | [], _, _, h => absurd h (by simp)
  | x :: as, m, hn, h => by
    rw [List.map_cons, List.nodup_cons] at hn
    rw [List.foldl_cons]
    rcases List.mem_cons.1 h with rfl | h
    · rw [foldl_keep _ _ _ hn.1, if_pos rfl]
    · exact foldl_get as _ hn.2 h

theorem MadeBy.fst {params : List ((O → X S P) × X S P)} {ws : List O} {order : List Nat} {n n' : Nat} {s s' : S} {as : List (Nat × P)}
    (h : MadeBy params ws order n s as n' s') : as.map Prod.fst = order := by
  induction h with
  | done => rfl
  | more hp h t ih => rw [List.map_cons, ih]

/-- **C91** Each argument is made exactly once, in the order the compiler chose, with all its effects; then the function gets them in the order of
the parameters, and the script gets its result. -/
theorem c91_order_runs (order : List Nat) (str : O → Bytes) (c : FCmd S O P R) (name : O) (ws : List O)
    (ho : order.Perm (List.range c.params.length)) (hc : c.min ≤ ws.length ∧ ws.length ≤ c.max) {n n1 n2 n3 : Nat} {s s1 s2 s3 : S}
    {made : List (Nat × P)} {as : List P} {r : R} {b : Bytes}
    (hm : MadeBy c.params ws order (n + 1) s made n1 s1) (hl : as.length = c.params.length) (has : ∀ k a, (k, a) ∈ made → as[k]? = some a)
    (hf : c.fn as n1 s1 = .ret r n2 s2) (hb : c.out r n2 s2 = .ret b n3 s3) :
    dispatchInF plenty order str c (name :: ws) n s = .ret (.ok b) n3 s3 := by
  have hs : sub64 (name :: ws).length 1 = ws.length := by
    unfold sub64
    rw [if_pos (by simp)]
    simp
  have hmk := makeInF_eq name hm fun _ => none
  have hnd : (made.map Prod.fst).Nodup := by rw [hm.fst]; exact ho.nodup_iff.2 List.nodup_range
  have hg : ∀ k ∈ List.range c.params.length, (made.foldl (fun m x j => if j = x.1 then some x.2 else m j) fun _ => none) k = as[k]? ∧
      (made.foldl (fun m x j => if j = x.1 then some x.2 else m j) fun _ => none) k ≠ none := by
    intro k hk
    have h1 : k ∈ made.map Prod.fst := by rw [hm.fst]; exact ho.mem_iff.2 hk
    obtain ⟨⟨k', a⟩, h2, rfl⟩ := List.mem_map.1 h1
    have h3 := foldl_get made (fun _ => none) hnd h2
    exact ⟨h3.trans (has _ _ h2).symm, by rw [h3]; nofun⟩
  obtain ⟨bs, e1, e2⟩ := gather_ok _ hg
  rw [← hl, range_getElem?] at e2
  have : bs = as := by
    have h1 := congrArg (List.filterMap id) e2
    simpa [List.filterMap_map] using h1
  subst this
  unfold dispatchInF
  dsimp only
  rw [X.bind_ret (X.alloc_ok (mem := plenty) rfl s), hs, if_neg (by omega)]
  unfold X.catching
  rw [X.bind_ret hmk, e1]
  dsimp only
  rw [X.bind_ret hf, X.bind_ret hb]
  rfl

/-- Two conversions that write down what they were given; right to left the second word comes first. -/
def noting (w : Bytes) : X (List Bytes) Bytes := fun n s => .ret w n (s ++ [w])
def noter : FCmd (List Bytes) Bytes Bytes Bytes := ⟨[(noting, pure []), (noting, pure [])], 1, 2, none, fun as => pure as.flatten, pure⟩

example : dispatchInF plenty [1, 0] id noter [[102], [97], [98]] 0 [] = .ret (.ok [97, 98]) 1 [[98], [97]] := rfl
example := c91_order_runs [1, 0] id noter [102] [[97], [98]] (List.Perm.swap 0 1 []) (by decide) (n := 0) (s := []) (as := [[97], [98]])
  (.more (k := 1) rfl rfl (.more (k := 0) rfl rfl (.done _ _))) rfl (by
    intro k a h
    simp at h
    rcases h with ⟨rfl, rfl⟩ | ⟨rfl, rfl⟩ <;> rfl) rfl rfl

end Bdlib.Tcl
