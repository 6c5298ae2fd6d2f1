import Verif.Props.C112

/-!
# C112 What a queue costs, by the room it has
-/

namespace Bdlib.Rca
open Bdlib Bdlib.Spec St

variable {T : Type} [DecidableEq T] {cfg : Cfg T}

/-- One call that moves at most `m - 1` elements after `r` free cells in front were used up, and then the others. -/
theorem law_step {a r m off n x : Nat} (h : x * r ≤ (m - 1) * (0 + n)) (ha : a ≤ m - 1) (hr : r ≤ off) :
    (a + x) * r ≤ (m - 1) * (off + (n + 1)) := by
  have h1 : a * r ≤ (m - 1) * off := Nat.mul_le_mul ha hr
  rw [Nat.add_mul]
  calc a * r + x * r ≤ (m - 1) * off + (m - 1) * (0 + n) := Nat.add_le_add h1 h
    _ = (m - 1) * (off + n) := by rw [← Nat.mul_add, Nat.zero_add]
    _ ≤ (m - 1) * (off + (n + 1)) := Nat.mul_le_mul_left _ (by omega)

/-- The elements moved by calls at the ends of an unshared buffer. -/
theorem queue_law (hv : cfg.Valid) (hp : cfg.Physical) (harr : cfg.nul = none) {m : Nat} {o : Nat} : ∀ (ds : List (Dq T)) {s : St T}
    {env : Env T} {q : List T} {g : Geo}, Reach cfg s env → env o = .val q → Within m q ds → (∀ x, Dq.pushFront x ∉ ds) → s.At o g →
    ¬ g.refs > 1 → m ≤ g.cap → queueMoved cfg o ds s * (g.cap + 1 - m) ≤ (m - 1) * (g.off + ds.length)
  | [], _, _, _, _, _, _, _, _, _, _, _ => by unfold queueMoved; omega
  | d :: ds, s, env, q, g, h, ho, hw, hd, hg, hrefs, hcap => by
    obtain ⟨hq, q1, hn, hw1⟩ := hw.cons
    have hview := h.view_eq hv hp ho
    have hlen : q.length = g.len ∧ g.off + g.len ≤ g.cap := by
      rcases at_of_view hview with ⟨g2, hat2, hcap2, hlen2⟩ | ⟨ob, hob, hr, _, _, _⟩
      · obtain ⟨ob1, b1, a1, a2, a3, a4, a5, a6, a7, a8⟩ := hat2
        obtain ⟨ob2, b2, c1, c2, c3, c4, c5, c6, c7, c8⟩ := hg
        rw [a1] at c1; cases c1
        have : g2.blk = g.blk := by rw [a2] at c2; exact Option.some.inj c2
        rw [this] at a5
        rw [a5] at c5; cases c5
        omega
      · obtain ⟨ob2, b2, c1, c2, _⟩ := hg
        rw [hob] at c1; cases c1
        rw [hr] at c2; cases c2
    have hgeo := queue_geo (cfg := cfg) hview hg hlen.1 hn
    unfold queueMoved
    cases hrun : run cfg (d.op o) s with
    | ub => dsimp only; omega
    | throw e s1 => dsimp only; omega
    | ok x s1 =>
      rw [hrun] at hgeo
      obtain ⟨g', hg', hcase⟩ := hgeo
      obtain ⟨env1, hre, ho1⟩ := h.queue hv hp ho hn hrun
      have ih := fun hrefs' hcap' => queue_law hv hp harr ds hre ho1 hw1 (fun x hx => hd x (List.mem_cons_of_mem _ hx)) hg' hrefs' hcap'
      dsimp only
      simp only [List.length_cons]
      cases d with
      | pushFront y => exact absurd List.mem_cons_self (hd y)
      | pushBack y =>
        have hl := next_length hn rfl
        have hm := hw1.here
        obtain ⟨_, hi⟩ := hcase
        have hroom : room cfg (g.len + 1) = g.len + 1 := by unfold room; rw [harr]; rfl
        have hsub : sub64 g.cap g.off = g.cap - g.off := by unfold sub64; rw [if_pos (by omega)]
        rcases hi with ⟨_, hr', hi | hi | hi⟩ | hi
        · have ih := ih (by rw [hr']; exact hrefs) (by rw [hi.2.2.1]; exact hcap)
          have h0 : movedIn s s1 o (.pushBack y) = 0 := by
            unfold movedIn
            rw [addr_at hg, addr_at hg', hi.1, hi.2.1, hi.2.2.2.1]
            exact if_pos rfl
          rw [h0, Nat.zero_add]
          rw [hi.2.2.2.1, hi.2.2.1] at ih
          exact Nat.le_trans ih (Nat.mul_le_mul_left _ (by omega))
        · have ih := ih (by rw [hr']; exact hrefs) (by rw [hi.1]; exact hcap)
          have hle : movedIn s s1 o (.pushBack y) ≤ g.len := by
            unfold movedIn
            split
            · exact Nat.zero_le _
            · rw [len_at hg]; exact Nat.le_refl _
          rw [hi.2.1, hi.1] at ih
          exact law_step ih (by omega) (by omega)
        · omega
        · exact absurd hi.1 hrefs
      | pop =>
        obtain ⟨rfl, hpos⟩ := hcase
        have ih := ih hrefs hcap
        have h0 : movedIn s s1 o .pop = 0 := by
          unfold movedIn
          rw [addr_at hg, addr_at hg']
          exact if_pos rfl
        rw [h0, Nat.zero_add]
        dsimp only at ih
        exact Nat.le_trans ih (Nat.mul_le_mul_left _ (by omega))
      | shift =>
        obtain ⟨rfl, hpos⟩ := hcase
        have ih := ih hrefs hcap
        have h0 : movedIn s s1 o .shift = 0 := by
          unfold movedIn
          rw [addr_at hg, addr_at hg']
          exact if_pos rfl
        rw [h0, Nat.zero_add]
        dsimp only at ih
        exact Nat.le_trans ih (Nat.mul_le_mul_left _ (by omega))

/-- **C112** (time, by the room there is) An Array of at most `m` elements, used as a queue by `push_back`, `shift` and `pop`, in
storage of its own with `capacity() = c`, at least `m`: `k` calls copy or move at most `(m - 1) * (c + k) / (c + 1 - m)`
elements.  With `c = 2 * m` that is less than one per call in the long run, with `c = m` it is `m - 1` per call; half of that is
reached, as `c112_refuted_cost` shows (one of the two calls of each round moves `m - 1` elements). -/
theorem c112_cost_law (hv : cfg.Valid) (hp : cfg.Physical) (harr : cfg.nul = none) {m o c : Nat} {ds : List (Dq T)} {s : St T} {env : Env T}
    {q : List T} (h : Reach cfg s env) (ho : env o = .val q) (hw : Within m q ds) (hd : ∀ x, Dq.pushFront x ∉ ds)
    (hsh : isShared o s = .ok false s) (hc : capacity o s = .ok c s) (hcap : m ≤ c) :
    queueMoved cfg o ds s * (c + 1 - m) ≤ (m - 1) * (c + ds.length) := by
  rcases at_of_view (h.view_eq hv hp ho) with ⟨g, hg, hle, _⟩ | ⟨ob, hob, hr, _, _, rfl⟩
  · rw [capacity_at hg] at hc
    cases hc
    have := queue_law hv hp harr ds h ho hw hd hg (unshared_refs hg hsh) hcap
    exact Nat.le_trans this (Nat.mul_le_mul_left _ (by omega))
  · rw [capacity_none hob hr] at hc
    cases hc
    have hm : m = 0 := by omega
    subst hm
    cases ds with
    | nil => unfold queueMoved; omega
    | cons d ds =>
      obtain ⟨_, q1, hn, hw1⟩ := hw.cons
      have := hw1.here
      cases d with
      | pushFront y => exact absurd List.mem_cons_self (hd y)
      | pushBack y => have := next_length hn rfl; simp at this; omega
      | pop => simp [Dq.next] at hn
      | shift => simp [Dq.next] at hn

/-! ## Examples -/

-- Five elements in a buffer of ten: `4 * (10 + 12) / 6 = 14` for 12 calls; and in a full buffer of five: 68 for 12 calls, 24 in fact.
example : queueMoved arrCfg 0 ([6, 7, 8, 9, 10, 11].flatMap fun x => [.shift, .pushBack x]) stQ2 * (10 + 1 - 5) ≤ (5 - 1) * (10 + 12) :=
  c112_cost_law (m := 5) (c := 10) arrCfg_valid arrCfg_physical rfl reachQ2 (o := 0) (q := [1, 2, 3, 4, 5]) env_q within_q (by simp)
    unshared_q2 capacity_q2 (by decide)
example : queueMoved arrCfg 0 ([6, 7, 8, 9, 10, 11].flatMap fun x => [.shift, .pushBack x]) stQ * (5 + 1 - 5) ≤ (5 - 1) * (5 + 12) :=
  c112_cost_law (m := 5) (c := 5) arrCfg_valid arrCfg_physical rfl reachQ (o := 0) (q := [1, 2, 3, 4, 5]) env_q within_q (by simp)
    unshared_q capacity_q (by decide)

end Bdlib.Rca
