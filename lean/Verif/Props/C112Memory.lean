import Verif.Props.C112

/-!
# C112 The memory a program uses
-/

namespace Bdlib.Rca
open Bdlib Bdlib.Spec St

variable {T : Type} [DecidableEq T] {cfg : Cfg T}

/-- Histories as in `Reach`, in which no call has to find room for more than `m` elements. -/
inductive Frugal (cfg : Cfg T) (m : Nat) : St T → Env T → Prop
  | init : Frugal cfg m {} Env.empty
  | step {s s' : St T} {env env' : Env T} {op : Op T} {out : Outcome T} : Frugal cfg m s env →
      Pre cfg (shared s) env op → op.needs env ≤ m → result (run cfg op s) = some (out, s') →
      Post cfg (shared s) env op out env' → Agrees s' env' → Frugal cfg m s' env'

theorem Frugal.reach {m : Nat} {s : St T} {env : Env T} (h : Frugal cfg m s env) : Reach cfg s env := by
  induction h with
  | init => exact .init
  | step _ hpre _ hres hpost hag ih => exact .step ih hpre hres hpost hag

theorem demand_le {m : Nat} {env : Env T} {op : Op T} (h : op.needs env ≤ m) :
    op.demand cfg.scale env ≤ max (m + 1) (peak cfg.scale m) := by
  have hp : peak cfg.scale (op.needs env) ≤ peak cfg.scale m := by
    have key : ∀ k, peak cfg.scale (op.needs env) ≤ peak cfg.scale (op.needs env + k) := by
      intro k
      induction k with
      | zero => exact Nat.le_refl _
      | succ k ih =>
        show _ ≤ max (peak cfg.scale (op.needs env + k)) _
        omega
    have := key (m - op.needs env)
    rwa [show op.needs env + (m - op.needs env) = m by omega] at this
  unfold Op.demand
  split <;> omega

/-- **C112** (memory of a program) If no call ever had to find room for more than `m` elements, no object has a capacity of more
than `m + 1` or what the growth factor makes of at most `m`. -/
theorem c112_program (hv : cfg.Valid) (hp : cfg.Physical) {m : Nat} {s : St T} {env : Env T} (h : Frugal cfg m s env) {p c : Nat}
    (hc : capacity p s = .ok c s) : c ≤ max (m + 1) (peak cfg.scale m) := by
  induction h generalizing p c with
  | init => cases hc
  | step hm hpre hneed hres hpost hag ih =>
    rcases c77_capacity hv hp hm.reach hpre hres hc with h | ⟨q, hq⟩
    · have := demand_le (cfg := cfg) hneed
      omega
    · exact ih hq

/-- The elements there is room for in all buffers together. -/
def cellsInUse (s : St T) : Nat := ((List.range s.heap.length).map fun a => ((s.blk a).map fun b => b.cells.length).getD 0).sum

/-- The number of objects. -/
def objects (s : St T) : Nat := (s.objs.filter Option.isSome).length

omit [DecidableEq T] in
theorem sum_filter_succ (f : Nat → Nat) (n : Nat) : ∀ refs : List Nat,
    ((refs.filter (· < n)).map f).sum ≤ ((refs.filter (· < n + 1)).map f).sum ∧
    (n ∈ refs → ((refs.filter (· < n)).map f).sum + f n ≤ ((refs.filter (· < n + 1)).map f).sum)
  | [] => by simp
  | r :: refs => by
    obtain ⟨h1, h2⟩ := sum_filter_succ f n refs
    by_cases hlt : r < n
    · have hlt' : r < n + 1 := by omega
      simp only [List.filter_cons, hlt, hlt', decide_true, if_true, List.map_cons, List.sum_cons]
      refine ⟨by omega, fun hm => ?_⟩
      rcases List.mem_cons.mp hm with e | hm
      · omega
      · have := h2 hm; omega
    · by_cases he : r = n
      · subst he
        simp only [List.filter_cons, Nat.lt_irrefl, decide_false, Nat.lt_succ_self, decide_true, if_true, List.map_cons, List.sum_cons,
          Bool.false_eq_true, if_false]
        exact ⟨by omega, fun _ => by omega⟩
      · have hlt' : ¬ r < n + 1 := by omega
        simp only [List.filter_cons, hlt, hlt', decide_false, Bool.false_eq_true, if_false]
        refine ⟨h1, fun hm => ?_⟩
        rcases List.mem_cons.mp hm with e | hm
        · exact absurd e.symm he
        · exact h2 hm

/-- Numbers that occur in a list are counted there. -/
theorem sum_range_le (f : Nat → Nat) (refs : List Nat) : ∀ n, (∀ a, a < n → f a ≠ 0 → a ∈ refs) →
    ((List.range n).map f).sum ≤ ((refs.filter (· < n)).map f).sum
  | 0, _ => by simp
  | n + 1, h => by
    have ih := sum_range_le f refs n fun a ha => h a (by omega)
    obtain ⟨h1, h2⟩ := sum_filter_succ f n refs
    rw [List.range_succ, List.map_append, List.sum_append]
    simp only [List.map_cons, List.map_nil, List.sum_cons, List.sum_nil]
    by_cases h0 : f n = 0
    · omega
    · have := h2 (h n (by omega) h0)
      omega

theorem sum_le_length {B : Nat} (f : Nat → Nat) : ∀ refs : List Nat, (∀ r, r ∈ refs → f r ≤ B) → (refs.map f).sum ≤ refs.length * B
  | [], _ => by simp
  | r :: refs, h => by
    have ih := sum_le_length f refs fun r hr => h r (List.mem_cons_of_mem _ hr)
    have := h r List.mem_cons_self
    simp only [List.map_cons, List.sum_cons, List.length_cons, Nat.succ_mul]
    omega

theorem filterMap_le : ∀ l : List (Option Obj), (l.filterMap fun x => x.bind Obj.ref).length ≤ (l.filter Option.isSome).length
  | [] => by simp
  | none :: l => by simpa using filterMap_le l
  | some ob :: l => by
    have ih := filterMap_le l
    rw [List.filterMap_cons, List.filter_cons]
    simp only [Option.bind_some, Option.isSome_some, if_true, List.length_cons]
    split
    · omega
    · simp only [List.length_cons]; omega

/-- Then the whole program has never more memory in use than that many elements for each of its objects; shared storage
counts once. -/
theorem c112_memory (hv : cfg.Valid) (hp : cfg.Physical) {m : Nat} {s : St T} {env : Env T} (h : Frugal cfg m s env) :
    cellsInUse s ≤ objects s * max (m + 1) (peak cfg.scale m) := by
  let f : Nat → Nat := fun a => ((s.blk a).map fun b => b.cells.length).getD 0
  let refs := s.objs.filterMap fun x => x.bind Obj.ref
  have owner : ∀ a b, s.blk a = some b → ∃ q ob, s.obj q = some ob ∧ ob.ref = some a := by
    intro a b hb
    obtain ⟨q, hq⟩ := (c02_storage_iff_owner hv hp h.reach a).mp ⟨b, hb⟩
    obtain ⟨ob, hob, hr⟩ := obj_of_storage hq
    exact ⟨q, ob, hob, hr⟩
  have hmem : ∀ a, a < s.heap.length → f a ≠ 0 → a ∈ refs := by
    intro a _ hne
    cases hb : s.blk a with
    | none => simp [f, hb] at hne
    | some b =>
      obtain ⟨q, ob, hob, hr⟩ := owner a b hb
      refine List.mem_filterMap.mpr ⟨some ob, ?_, hr⟩
      unfold St.obj at hob
      cases hx : s.objs[q]? with
      | none => rw [hx] at hob; simp at hob
      | some x =>
        rw [hx] at hob
        simp at hob
        subst hob
        exact List.mem_of_getElem? hx
  have hB : ∀ r, f r ≤ max (m + 1) (peak cfg.scale m) := by
    intro r
    cases hb : s.blk r with
    | none => simp [f, hb]
    | some b =>
      obtain ⟨q, ob, hob, hr⟩ := owner r b hb
      have := c112_program hv hp h (capacity_run hob hr hb)
      simpa [f, hb] using this
  have h1 : cellsInUse s ≤ ((refs.filter (· < s.heap.length)).map f).sum := sum_range_le f refs s.heap.length hmem
  have h2 := sum_le_length f (refs.filter (· < s.heap.length)) fun r _ => hB r
  have h3 : (refs.filter (· < s.heap.length)).length ≤ objects s := Nat.le_trans (List.length_filter_le _ _) (filterMap_le s.objs)
  exact Nat.le_trans h1 (Nat.le_trans h2 (Nat.mul_le_mul_right _ h3))

/-! ## Examples -/

/-- A history of `Frugal`, one call longer. -/
theorem Frugal.next (hv : cfg.Valid) (hp : cfg.Physical) {m : Nat} {s s' : St T} {env env' : Env T} {op : Op T} {x : Out T}
    (h : Frugal cfg m s env) (hpre : Pre cfg (shared s) env op) (hneed : op.needs env ≤ m) (hrun : run cfg op s = .ok x s')
    (hop : ¬ IsResize op) (hpost : Post cfg (shared s) env op (.ret x) env') : Frugal cfg m s' env' := by
  obtain ⟨out, s1, env1, h1, h2, h3⟩ := h.reach.call hv hp hpre
  have h1' := h1
  rw [hrun] at h1
  cases h1
  rw [post_det hop hpost h2]
  exact .step h hpre hneed h1' h2 (h3.agrees hv hp)

/-- Two Arrays that share one buffer of five elements. -/
theorem frugal_two : ∃ s env, Frugal arrCfg 5 s env ∧ cellsInUse s = 5 ∧ objects s = 2 := by
  have h1 : Frugal arrCfg 5 stQ (Env.empty.upd 0 (.val [1, 2, 3, 4, 5])) :=
    Frugal.next arrCfg_valid arrCfg_physical .init (op := .listCtor [1, 2, 3, 4, 5]) (x := .obj 0) rfl (by decide) rfl (fun h => h)
      (Or.inl ⟨0, rfl, rfl, rfl⟩)
  exact ⟨_, _, Frugal.next arrCfg_valid arrCfg_physical h1 (op := .copyCtor 0) (x := .obj 1) (fun e => nomatch e) (by decide) rfl (fun h => h)
    ⟨1, rfl, rfl, rfl⟩, by decide +kernel, by decide +kernel⟩

-- The growth factor makes 7 of 5.
example : max (5 + 1) (peak arrCfg.scale 5) = 7 := by decide +kernel
example {s : St Nat} {env : Env Nat} (h : Frugal arrCfg 5 s env) : cellsInUse s ≤ objects s * 7 :=
  (c112_memory arrCfg_valid arrCfg_physical h : cellsInUse s ≤ objects s * max (5 + 1) (peak arrCfg.scale 5))

end Bdlib.Rca
