import Verif.Rca.Queue
import Verif.Props.C18
import Verif.Props.C64
import Verif.Props.C77

/-!
# C112 An Array used as a queue: memory and time
-/

namespace Bdlib.Rca
open Bdlib Bdlib.Spec St

variable {T : Type} [DecidableEq T] {cfg : Cfg T}

/-- Address of element `i` of object `o`. -/
def addr (s : St T) (o i : Nat) : Option (Nat × Nat × Nat) := (home s o).map fun h => (h.1, h.2.1, h.2.2 + i)

/-- The first element that is there before and after a call: its index before. -/
def Dq.before : Dq T → Nat
  | .shift => 1
  | _ => 0
/-- Its index after the call. -/
def Dq.after : Dq T → Nat
  | .pushFront _ => 1
  | _ => 0
/-- How many elements are there before and after a call on `n` elements. -/
def Dq.stay (n : Nat) : Dq T → Nat
  | .shift | .pop => n - 1
  | _ => n

/-- The elements a call copied or moved to another address. -/
def movedIn (s s' : St T) (o : Nat) (d : Dq T) : Nat :=
  if addr s o d.before = addr s' o d.after then 0 else d.stay (((s.obj o).map Obj.sublen).getD 0)

/-- The elements a sequence of calls copied or moved, up to the first call that fails. -/
def queueMoved (cfg : Cfg T) (o : Nat) : List (Dq T) → St T → Nat
  | [], _ => 0
  | d :: ds, s =>
    match run cfg (d.op o) s with
    | .ok _ s' => movedIn s s' o d + queueMoved cfg o ds s'
    | _ => 0

/-- The queue `q` has at most `m` elements during the calls, and nothing is taken from it when it is empty. -/
def Within (m : Nat) (q : List T) (ds : List (Dq T)) : Prop :=
  ∀ k, k ≤ ds.length → ∃ rs q', ideal q (ds.take k) = some (rs, q') ∧ q'.length ≤ m

/-- What is in the queue after one call. -/
def Dq.next (q : List T) : Dq T → Option (List T)
  | .pushBack x => some (q ++ [x])
  | .pushFront x => some (x :: q)
  | .pop => if q = [] then none else some q.dropLast
  | .shift => if q = [] then none else some q.tail

theorem ideal_cons (q : List T) (d : Dq T) (ds : List (Dq T)) {rs : List (Option T)} {q' : List T}
    (h : ideal q (d :: ds) = some (rs, q')) : ∃ q1 rs', d.next q = some q1 ∧ ideal q1 ds = some (rs', q') := by
  cases d with
  | pushBack x =>
    simp only [ideal, Option.map_eq_some_iff, Prod.mk.injEq] at h
    obtain ⟨⟨r1, r2⟩, hr, _, rfl⟩ := h
    exact ⟨_, r1, rfl, hr⟩
  | pushFront x =>
    simp only [ideal, Option.map_eq_some_iff, Prod.mk.injEq] at h
    obtain ⟨⟨r1, r2⟩, hr, _, rfl⟩ := h
    exact ⟨_, r1, rfl, hr⟩
  | pop =>
    cases q with
    | nil => simp [ideal] at h
    | cons y q =>
      simp only [ideal, Option.map_eq_some_iff, Prod.mk.injEq] at h
      obtain ⟨⟨r1, r2⟩, hr, _, rfl⟩ := h
      exact ⟨_, r1, by simp [Dq.next], hr⟩
  | shift =>
    cases q with
    | nil => simp [ideal] at h
    | cons y q =>
      simp only [ideal, Option.map_eq_some_iff, Prod.mk.injEq] at h
      obtain ⟨⟨r1, r2⟩, hr, _, rfl⟩ := h
      exact ⟨_, r1, by simp [Dq.next], hr⟩

theorem Within.cons {m : Nat} {q : List T} {d : Dq T} {ds : List (Dq T)} (h : Within m q (d :: ds)) :
    q.length ≤ m ∧ ∃ q1, d.next q = some q1 ∧ Within m q1 ds := by
  constructor
  · obtain ⟨rs, q', h1, h2⟩ := h 0 (Nat.zero_le _)
    simp only [List.take_zero, ideal, Option.some.injEq, Prod.mk.injEq] at h1
    rw [h1.2]; exact h2
  · obtain ⟨rs, q', h1, h2⟩ := h 1 (by simp)
    obtain ⟨q1, _, hn, _⟩ := ideal_cons q d _ h1
    refine ⟨q1, hn, fun k hk => ?_⟩
    obtain ⟨rs, q', h1, h2⟩ := h (k + 1) (by simpa using hk)
    obtain ⟨q2, rs', hn', hi⟩ := ideal_cons q d (ds.take k) h1
    rw [hn] at hn'
    cases hn'
    exact ⟨rs', q', hi, h2⟩

theorem Within.here {m : Nat} {q : List T} {ds : List (Dq T)} (h : Within m q ds) : q.length ≤ m := by
  obtain ⟨rs, q', h1, h2⟩ := h 0 (Nat.zero_le _)
  simp only [List.take_zero, ideal, Option.some.injEq, Prod.mk.injEq] at h1
  rw [h1.2]; exact h2

theorem ok_mapOut {α : Type} {m : M T α} {f : α → Out T} {s : St T} {Q : St T → Prop} (h : (m s).Ok fun _ s' => Q s') :
    (mapOut m f s).Ok fun _ s' => Q s' := by
  unfold mapOut
  apply ok_bind
  exact ok_mono h fun _ _ h => h

/-- One call, for an object with storage. -/
theorem queue_geo {s : St T} {o : Nat} {q q1 : List T} {g : Geo} {d : Dq T} (hv : s.view o = some q) (hg : s.At o g)
    (hlen : q.length = g.len) (hn : d.next q = some q1) :
    (run cfg (d.op o) s).Ok fun _ s' => ∃ g', s'.At o g' ∧ match d with
      | .pushBack _ | .pushFront _ => Inserts cfg g g'
      | .pop => g' = { g with len := g.len - 1 } ∧ 0 < g.len
      | .shift => g' = { g with off := g.off + 1, len := g.len - 1 } ∧ 0 < g.len := by
  cases d with
  | pushBack x =>
    refine ok_mapOut ?_
    unfold append
    rw [bind_ok (length_spec hv)]
    exact insertItem_geo hg hv hlen (Nat.le_refl _)
  | pushFront x => exact ok_mapOut (insertItem_geo hg hv hlen (Nat.zero_le _))
  | pop =>
    have hpos : 0 < g.len := by
      rw [← hlen]
      cases q with
      | nil => simp [Dq.next] at hn
      | cons y q => simp
    exact ok_mapOut (ok_mono (pop_geo hg hpos) fun _ s' h => ⟨_, h, rfl, hpos⟩)
  | shift =>
    have hpos : 0 < g.len := by
      rw [← hlen]
      cases q with
      | nil => simp [Dq.next] at hn
      | cons y q => simp
    exact ok_mapOut (ok_mono (shift_geo hg hpos) fun _ s' h => ⟨_, h, rfl, hpos⟩)

theorem capacity_at {s : St T} {o : Nat} {g : Geo} (h : s.At o g) : capacity o s = .ok g.cap s := by
  obtain ⟨ob, b, h1, h2, h3, h4, h5, h6, h7, h8⟩ := h
  unfold capacity
  rw [bind_ok (getObj_eq h1), h2]
  show (getBlk g.blk >>= fun b => pure b.cells.length : M T Nat) s = _
  rw [bind_ok (by unfold getBlk; rw [h5] : getBlk g.blk s = .ok b s), h7]
  rfl

theorem capacity_none {s : St T} {o : Nat} {ob : Obj} (h : s.obj o = some ob) (hr : ob.ref = none) : capacity o s = .ok 0 s := by
  unfold capacity
  rw [bind_ok (getObj_eq h), hr]
  rfl

/-- Does the call add an element? -/
def Dq.adds : Dq T → Bool
  | .pushBack _ | .pushFront _ => true
  | _ => false

theorem next_length {q q1 : List T} {d : Dq T} (hn : d.next q = some q1) : d.adds = true → q1.length = q.length + 1 := by
  intro hd
  cases d with
  | pushBack x => simp only [Dq.next, Option.some.injEq] at hn; subst hn; simp
  | pushFront x => simp only [Dq.next, Option.some.injEq] at hn; subst hn; simp
  | pop => cases hd
  | shift => cases hd

/-- The capacity after one call. -/
theorem queue_cap {s : St T} {o c m B : Nat} {q q1 : List T} {d : Dq T} (hs : ∀ c, c ≤ m → cfg.scale c ≤ B) (hB : m + 1 ≤ B)
    (hv : s.view o = some q) (hn : d.next q = some q1) (hm : q1.length ≤ m) (hc : capacity o s = .ok c s) :
    (run cfg (d.op o) s).Ok fun _ s' => ∃ c', capacity o s' = .ok c' s' ∧ c' ≤ max c B := by
  have hl := next_length hn
  have h0 := hs 0 (Nat.zero_le _)
  rcases at_of_view hv with ⟨g, hg, _, hlen⟩ | ⟨ob, hob, hr, hoff, hsub, rfl⟩
  · rw [capacity_at hg] at hc
    cases hc
    refine ok_mono (queue_geo hv hg hlen hn) ?_
    rintro _ s' ⟨g', hg', hcase⟩
    refine ⟨_, capacity_at hg', ?_⟩
    have key : Inserts cfg g g' → q1.length = q.length + 1 → g'.cap ≤ max g.cap B := by
      rintro ⟨_, hi⟩ hl
      have hr := room_le cfg (g.len + 1)
      rcases hi with ⟨_, _, h | h | h⟩ | h
      · rw [h.2.2.1]; omega
      · rw [h.1]; omega
      · have := hs g.cap (by omega)
        rw [h.2.1]; omega
      · have := h.2.2.2
        omega
    cases d with
    | pushBack x => exact key hcase (hl rfl)
    | pushFront x => exact key hcase (hl rfl)
    | pop => rw [hcase.1]; exact Nat.le_max_left _ _
    | shift => rw [hcase.1]; exact Nat.le_max_left _ _
  · rw [capacity_none hob hr] at hc
    cases hc
    have key : ∀ {pos : Nat} {x : T}, pos ≤ 0 → q1.length = 0 + 1 → (insertItem cfg o pos x s).Ok fun _ s' =>
        ∃ c', capacity o s' = .ok c' s' ∧ c' ≤ max 0 B := by
      intro pos x hpos hl
      refine ok_mono (insertItem_geo_none hob hr hoff hsub hv hpos) ?_
      rintro _ s' ⟨g', hg', _, _, _, hcap⟩
      have hr := room_le cfg 1
      exact ⟨_, capacity_at hg', by omega⟩
    cases d with
    | pushBack x =>
      refine ok_mapOut ?_
      unfold append
      rw [bind_ok (length_spec hv)]
      exact key (Nat.le_refl _) (hl rfl)
    | pushFront x => exact ok_mapOut (key (Nat.zero_le _) (hl rfl))
    | pop => simp [Dq.next] at hn
    | shift => simp [Dq.next] at hn

/-- After a call that returned, the program is where the ideal queue is. -/
theorem Reach.queue (hv : cfg.Valid) (hp : cfg.Physical) {s s' : St T} {env : Env T} (h : Reach cfg s env) {o : Nat}
    {q q1 : List T} {d : Dq T} (ho : env o = .val q) (hn : d.next q = some q1) {x : Out T}
    (hrun : run cfg (d.op o) s = .ok x s') : ∃ env', Reach cfg s' env' ∧ env' o = .val q1 := by
  have hpre : Pre cfg (shared s) env (d.op o) := by
    cases d with
    | pushBack x => exact has_val ho
    | pushFront x => exact has_val ho
    | pop =>
      refine ⟨has_val ho, ?_⟩
      rw [get_val ho]
      intro e
      simp [Dq.next, e] at hn
    | shift =>
      refine ⟨has_val ho, ?_⟩
      rw [get_val ho]
      intro e
      simp [Dq.next, e] at hn
  obtain ⟨out, s1, env', hres, hpost, hre⟩ := h.call hv hp hpre
  rw [hrun] at hres
  cases hres
  refine ⟨env', hre, ?_⟩
  cases d with
  | pushBack y =>
    simp only [Dq.op, Post, get_val ho] at hpost
    simp only [Dq.next, Option.some.injEq] at hn
    rcases hpost with ⟨_, rfl⟩ | hf
    · rw [Env.upd_self, hn]
    · cases hf.1
  | pushFront y =>
    simp only [Dq.op, Post, Checked, get_val ho, Nat.zero_le, if_true] at hpost
    simp only [Dq.next, Option.some.injEq] at hn
    rcases hpost with ⟨_, rfl⟩ | hf
    · rw [Env.upd_self, ← hn]; simp [insertAt]
    · cases hf.1
  | pop =>
    simp only [Dq.op, Post, get_val ho] at hpost
    have hq : q ≠ [] := by intro e; simp [Dq.next, e] at hn
    simp only [Dq.next, hq, if_false, Option.some.injEq] at hn
    obtain ⟨_, rfl⟩ := hpost
    rw [Env.upd_self, hn]
  | shift =>
    simp only [Dq.op, Post, get_val ho] at hpost
    have hq : q ≠ [] := by intro e; simp [Dq.next, e] at hn
    simp only [Dq.next, hq, if_false, Option.some.injEq] at hn
    obtain ⟨_, rfl⟩ := hpost
    rw [Env.upd_self, hn]

/-- **C112** (memory) However long a queue is used, by whatever calls at either end, whoever shared its storage before: if it
never has more than `m` elements, `capacity()` is at most what it was or `B`, where `B` is at least what the growth factor makes
of `m` cells, and `m + 1`. -/
theorem c112_bounded (hv : cfg.Valid) (hp : cfg.Physical) {m B : Nat} (hs : ∀ c, c ≤ m → cfg.scale c ≤ B) (hB : m + 1 ≤ B) {o : Nat} :
    ∀ (ds : List (Dq T)) {s : St T} {env : Env T} {q : List T} {c : Nat}, Reach cfg s env → env o = .val q → Within m q ds →
    capacity o s = .ok c s →
    (perform cfg o ds s).Ok fun _ s' => ∃ c', capacity o s' = .ok c' s' ∧ c' ≤ max c B
  | [], _, _, _, c, _, _, _, hc => ⟨c, hc, Nat.le_max_left _ _⟩
  | d :: ds, s, env, q, c, h, ho, hw, hc => by
    obtain ⟨_, q1, hn, hw1⟩ := hw.cons
    unfold perform
    apply ok_bind
    have hcap := queue_cap (cfg := cfg) hs hB (h.view_eq hv hp ho) hn hw1.here hc
    cases hrun : run cfg (d.op o) s with
    | ub => trivial
    | throw e s1 => trivial
    | ok x s1 =>
      rw [hrun] at hcap
      obtain ⟨c1, hc1, hle⟩ := hcap
      obtain ⟨env1, hre, ho1⟩ := h.queue hv hp ho hn hrun
      apply ok_bind
      refine ok_mono (c112_bounded hv hp hs hB ds hre ho1 hw1 hc1) ?_
      rintro _ s2 ⟨c2, hc2, hle2⟩
      exact ⟨c2, hc2, by omega⟩

/-- With the growth factor of the code: never more than one and a half times `m`, and one. -/
theorem c112_bounded_code (hv : cfg.Valid) (hp : cfg.Physical) (hscale : ∀ c, cfg.scale c = c + c / 2) {m : Nat} {o : Nat}
    {ds : List (Dq T)} {s : St T} {env : Env T} {q : List T} {c : Nat} (h : Reach cfg s env) (ho : env o = .val q)
    (hw : Within m q ds) (hc : capacity o s = .ok c s) :
    (perform cfg o ds s).Ok fun _ s' => ∃ c', capacity o s' = .ok c' s' ∧ c' ≤ max c (m + m / 2 + 1) :=
  c112_bounded hv hp (fun c hcm => by rw [hscale]; omega) (by omega) ds h ho hw hc

theorem addr_at {s : St T} {o i : Nat} {g : Geo} (h : s.At o g) : addr s o i = some (g.blk, g.gen, g.off + i) := by
  unfold addr
  rw [home_at h]
  rfl

/-- The elements moved by calls at the ends of an unshared buffer with room for twice the elements. -/
theorem queue_cost (hv : cfg.Valid) (hp : cfg.Physical) {m : Nat} {o : Nat} : ∀ (ds : List (Dq T)) {s : St T} {env : Env T}
    {q : List T} {g : Geo}, Reach cfg s env → env o = .val q → Within m q ds → (∀ x, Dq.pushFront x ∉ ds) → s.At o g →
    ¬ g.refs > 1 → 2 * m ≤ g.cap → queueMoved cfg o ds s ≤ g.off + ds.length
  | [], _, _, _, _, _, _, _, _, _, _, _ => Nat.zero_le _
  | d :: ds, s, env, q, g, h, ho, hw, hd, hg, hrefs, hcap => by
    obtain ⟨hq, q1, hn, hw1⟩ := hw.cons
    have hview := h.view_eq hv hp ho
    have hlen : q.length = g.len ∧ g.off + g.len ≤ g.cap := by
      rcases at_of_view hview with ⟨g2, hat2, hcap2, hlen2⟩ | ⟨ob, hob, hr, _, _, _⟩
      · obtain ⟨ob1, b1, a1, a2, a3, a4, a5, a6, a7, a8⟩ := hat2
        obtain ⟨ob2, b2, c1, c2, c3, c4, c5, c6, c7, c8⟩ := hg
        rw [a1] at c1; cases c1
        have : g2.blk = g.blk := by rw [a2] at c2; exact Option.some.inj c2
        rw [this] at a5
        rw [a5] at c5; cases c5
        omega
      · obtain ⟨ob2, b2, c1, c2, _⟩ := hg
        rw [hob] at c1; cases c1
        rw [hr] at c2; cases c2
    have hgeo := queue_geo (cfg := cfg) hview hg hlen.1 hn
    unfold queueMoved
    cases hrun : run cfg (d.op o) s with
    | ub => exact Nat.zero_le _
    | throw e s1 => exact Nat.zero_le _
    | ok x s1 =>
      rw [hrun] at hgeo
      obtain ⟨g', hg', hcase⟩ := hgeo
      obtain ⟨env1, hre, ho1⟩ := h.queue hv hp ho hn hrun
      have ih := fun hrefs' hcap' => queue_cost hv hp ds hre ho1 hw1 (fun x hx => hd x (List.mem_cons_of_mem _ hx)) hg' hrefs' hcap'
      dsimp only
      simp only [List.length_cons]
      cases d with
      | pushFront y => exact absurd List.mem_cons_self (hd y)
      | pushBack y =>
        have hl := next_length hn rfl
        have hm := hw1.here
        obtain ⟨_, hi⟩ := hcase
        have hroom := room_le cfg (g.len + 1)
        have hsub : sub64 g.cap g.off = g.cap - g.off := by unfold sub64; rw [if_pos (by omega)]
        rcases hi with ⟨_, hr', hi | hi | hi⟩ | hi
        · have ih := ih (by rw [hr']; exact hrefs) (by rw [hi.2.2.1]; exact hcap)
          have h0 : movedIn s s1 o (.pushBack y) = 0 := by
            unfold movedIn
            rw [addr_at hg, addr_at hg', hi.1, hi.2.1, hi.2.2.2.1]
            exact if_pos rfl
          rw [h0]
          rw [hi.2.2.2.1] at ih
          omega
        · have ih := ih (by rw [hr']; exact hrefs) (by rw [hi.1]; exact hcap)
          have hle : movedIn s s1 o (.pushBack y) ≤ g.len := by
            unfold movedIn
            split
            · exact Nat.zero_le _
            · rw [len_at hg]; exact Nat.le_refl _
          rw [hi.2.1] at ih
          omega
        · omega
        · exact absurd hi.1 hrefs
      | pop =>
        obtain ⟨rfl, hpos⟩ := hcase
        have ih := ih hrefs hcap
        have h0 : movedIn s s1 o .pop = 0 := by
          unfold movedIn
          rw [addr_at hg, addr_at hg']
          exact if_pos rfl
        rw [h0]
        dsimp only at ih
        omega
      | shift =>
        obtain ⟨rfl, hpos⟩ := hcase
        have ih := ih hrefs hcap
        have h0 : movedIn s s1 o .shift = 0 := by
          unfold movedIn
          rw [addr_at hg, addr_at hg']
          exact if_pos rfl
        rw [h0]
        dsimp only at ih
        omega

theorem unshared_refs {s : St T} {o : Nat} {g : Geo} (hg : s.At o g) (h : isShared o s = .ok false s) : ¬ g.refs > 1 := by
  obtain ⟨ob, b, h1, h2, h3, h4, h5, h6, h7, h8⟩ := hg
  unfold isShared at h
  rw [bind_ok (getObj_eq h1), h2] at h
  change (getBlk g.blk >>= _) s = _ at h
  rw [bind_ok (by unfold getBlk; rw [h5] : getBlk g.blk s = .ok b s)] at h
  rw [← h8]
  have e : decide (b.refs > 1) = false := by injection h
  simpa using e

/-- **C112** (time) A queue of at most `m` elements, used by `push_back`, `shift` and `pop`, in storage of its own with a capacity
of at least `2 * m` (as after `reserve(2 * m)`): `k` calls copy or move at most `capacity() + k` elements, so one per call in the
long run. -/
theorem c112_cost_partial (hv : cfg.Valid) (hp : cfg.Physical) {m o c : Nat} {ds : List (Dq T)} {s : St T} {env : Env T} {q : List T}
    (h : Reach cfg s env) (ho : env o = .val q) (hw : Within m q ds) (hd : ∀ x, Dq.pushFront x ∉ ds)
    (hsh : isShared o s = .ok false s) (hc : capacity o s = .ok c s) (hcap : 2 * m ≤ c) :
    queueMoved cfg o ds s ≤ c + ds.length := by
  rcases at_of_view (h.view_eq hv hp ho) with ⟨g, hg, hle, _⟩ | ⟨ob, hob, hr, _, _, rfl⟩
  · rw [capacity_at hg] at hc
    cases hc
    have := queue_cost hv hp ds h ho hw hd hg (unshared_refs hg hsh) hcap
    omega
  · rw [capacity_none hob hr] at hc
    cases hc
    have hm : m = 0 := by omega
    subst hm
    cases ds with
    | nil => exact Nat.zero_le _
    | cons d ds =>
      obtain ⟨_, q1, hn, hw1⟩ := hw.cons
      have := hw1.here
      cases d with
      | pushBack x => simp only [Dq.next, Option.some.injEq] at hn; subst hn; simp at this
      | pushFront x => exact absurd List.mem_cons_self (hd x)
      | pop => simp [Dq.next] at hn
      | shift => simp [Dq.next] at hn

/-- One round: the first element is taken out and one is added, in a full buffer. -/
theorem full_round (hv : cfg.Valid) (hp : cfg.Physical) (harr : cfg.nul = none) {m : Nat}
    (hmem : ∀ i n, n ≤ max (m + 1) (peak cfg.scale m) → cfg.allocOk i n = true) {o : Nat} {s : St T} {env : Env T} {q : List T}
    {g : Geo} (h : Reach cfg s env) (ho : env o = .val q) (hq : q.length = m) (hm : 0 < m) (hg : s.At o g) (hrefs : ¬ g.refs > 1)
    (hoff : g.off = 0) (hlen : g.len = m) (hcap : g.cap = m) (x : T) : ∃ y s1 z s2 env2 q2 g2,
    run cfg (Dq.op o .shift) s = .ok y s1 ∧ run cfg (Dq.op o (.pushBack x)) s1 = .ok z s2 ∧
    movedIn s s1 o .shift = 0 ∧ movedIn s1 s2 o (.pushBack x) = m - 1 ∧
    Reach cfg s2 env2 ∧ env2 o = .val q2 ∧ q2.length = m ∧ s2.At o g2 ∧ ¬ g2.refs > 1 ∧ g2.off = 0 ∧ g2.len = m ∧ g2.cap = m := by
  have hne : q ≠ [] := by intro e; subst e; simp at hq; omega
  have hn : Dq.next q (.shift : Dq T) = some q.tail := by simp [Dq.next, hne]
  obtain ⟨out, s1, env1, hres, hpost, hre1⟩ := h.call hv hp (op := .shift o) ⟨has_val ho, by rw [get_val ho]; exact hne⟩
  simp only [Post] at hpost
  obtain ⟨ho1, rfl⟩ := hpost
  subst ho1
  have hrun := result_ok hres
  have hgeo := queue_geo (cfg := cfg) (d := .shift) (h.view_eq hv hp ho) hg (by omega) hn
  change (run cfg (.shift o) s).Ok _ at hgeo
  rw [hrun] at hgeo
  obtain ⟨g1, hg1, hgeq, _⟩ := hgeo
  rw [get_val ho] at hre1
  have hv1 : (env.upd o (.val q.tail)) o = .val q.tail := Env.upd_self
  have hl1 : q.tail.length = m - 1 := by rw [List.length_tail, hq]
  have hdem : (Op.append o x).demand cfg.scale (env.upd o (.val q.tail)) = max (m + 1) (peak cfg.scale m) := by
    show max ((Env.get (env.upd o (.val q.tail)) o).length + 1 + 1) (peak cfg.scale ((Env.get (env.upd o (.val q.tail)) o).length + 1)) = _
    rw [get_val hv1, hl1, show m - 1 + 1 = m by omega]
  rcases c77_enough hv hp hre1 (op := .append o x) (has_val hv1) (by rw [hdem]; exact hmem) with
    ⟨z, s2, env2, hrun2, hpost2, hre2⟩ | ⟨s2, env2, hrun2, hpost2, hre2⟩
  · have hn2 : Dq.next q.tail (.pushBack x) = some (q.tail ++ [x]) := rfl
    obtain ⟨env3, hre3, hv3⟩ := hre1.queue hv hp (d := .pushBack x) hv1 hn2 hrun2
    have hgeo2 := queue_geo (cfg := cfg) (d := .pushBack x) (hre1.view_eq hv hp hv1) hg1 (by rw [hgeq]; dsimp only; omega) hn2
    change (run cfg (.append o x) s1).Ok _ at hgeo2
    rw [hrun2] at hgeo2
    obtain ⟨g2, hg2, hlen2, hi⟩ := hgeo2
    subst hgeq
    have hroom : room cfg (g.len - 1 + 1) = m := by
      unfold room
      rw [harr]
      simp
      omega
    have hsub : sub64 g.cap (g.off + 1) = m - 1 := by unfold sub64; rw [if_pos (by omega)]; omega
    dsimp only at hi hlen2
    rw [hroom, hsub] at hi
    rcases hi with ⟨_, hr', hi | hi | hi⟩ | hi
    · omega
    · refine ⟨_, s1, z, s2, env3, _, g2, hrun, hrun2, ?_, ?_, hre3, hv3, by simp; omega, hg2, by rw [hr']; exact hrefs, hi.2.1,
        by omega, by rw [hi.1]; exact hcap⟩
      · unfold movedIn
        rw [addr_at hg, addr_at hg1]
        exact if_pos rfl
      · unfold movedIn
        rw [addr_at hg1, addr_at hg2, if_neg, len_at hg1]
        · show g.len - 1 = m - 1
          omega
        · intro e
          simp only [Option.some.injEq, Prod.mk.injEq] at e
          have := e.2.2
          dsimp only [Dq.before, Dq.after] at this
          omega
    · omega
    · exact absurd hi.1 hrefs
  · simp only [Post] at hpost2
    rcases hpost2 with ⟨h1, _⟩ | h1
    · cases h1
    · cases h1.1

/-- Without that much room calls do not take constant time: in any Array of any history whose elements fill its storage, every
round of `shift()` and `push_back(x)` moves all elements that stay.  Any number of rounds, any number of elements. -/
theorem c112_refuted_cost (hv : cfg.Valid) (hp : cfg.Physical) (harr : cfg.nul = none) {o : Nat} {s : St T} {env : Env T} {q : List T}
    (h : Reach cfg s env) (ho : env o = .val q) (hq : q ≠ []) (hsh : isShared o s = .ok false s)
    (hfull : capacity o s = .ok q.length s)
    (hmem : ∀ i n, n ≤ max (q.length + 1) (peak cfg.scale q.length) → cfg.allocOk i n = true) (xs : List T) :
    queueMoved cfg o (xs.flatMap fun x => [.shift, .pushBack x]) s = xs.length * (q.length - 1) := by
  have hpos : 0 < q.length := List.length_pos_iff.mpr hq
  have main : ∀ (xs : List T) {s : St T} {env : Env T} {q1 : List T} {g : Geo}, Reach cfg s env → env o = .val q1 →
      q1.length = q.length → s.At o g → ¬ g.refs > 1 → g.off = 0 → g.len = q.length → g.cap = q.length →
      queueMoved cfg o (xs.flatMap fun x => [.shift, .pushBack x]) s = xs.length * (q.length - 1) := by
    intro xs
    induction xs with
    | nil => intros; simp [queueMoved]
    | cons x xs ih =>
      intro s env q1 g h ho hl hg hr h1 h2 h3
      obtain ⟨y, s1, z, s2, env2, q2, g2, hrun1, hrun2, hm1, hm2, hre, hv2, hl2, hg2, hr2, a1, a2, a3⟩ :=
        full_round hv hp harr hmem h ho hl hpos hg hr h1 h2 h3 x
      have ih := ih hre hv2 hl2 hg2 hr2 a1 a2 a3
      show queueMoved cfg o (.shift :: .pushBack x :: xs.flatMap fun x => [.shift, .pushBack x]) s = _
      unfold queueMoved
      rw [hrun1]
      dsimp only
      unfold queueMoved
      rw [hrun2]
      dsimp only
      rw [hm1, hm2, ih, List.length_cons, Nat.succ_mul]
      omega
  rcases at_of_view (h.view_eq hv hp ho) with ⟨g, hg, hle, hlen⟩ | ⟨ob, _, _, _, _, e⟩
  · rw [capacity_at hg] at hfull
    have hcap : g.cap = q.length := by injection hfull
    exact main xs h ho rfl hg (unshared_refs hg hsh) (by omega) (by omega) hcap
  · exact absurd e hq

/-! ## Examples -/

/-- `Array<int> a{1, 2, 3, 4, 5}`. -/
def stQ : St Nat := (exec arrCfg {} [.listCtor [1, 2, 3, 4, 5]]).getD {}

theorem reachQ : Reach arrCfg stQ (Env.empty.upd 0 (.val [1, 2, 3, 4, 5])) :=
  Reach.next arrCfg_valid arrCfg_physical (.init) (op := .listCtor [1, 2, 3, 4, 5]) (x := .obj 0) rfl rfl (fun h => h)
    (Or.inl ⟨0, rfl, rfl, rfl⟩)

theorem within_of_lens {m : Nat} {q : List Nat} {ds : List (Dq Nat)}
    (h : ∀ k, k ∈ List.range (ds.length + 1) → ((ideal q (ds.take k)).map fun r => decide (r.2.length ≤ m)) = some true) :
    Within m q ds := by
  intro k hk
  have := h k (by rw [List.mem_range]; omega)
  cases hi : ideal q (ds.take k) with
  | none => rw [hi] at this; cases this
  | some r =>
    rw [hi] at this
    exact ⟨r.1, r.2, rfl, by simpa using this⟩

theorem within_a : Within 5 [2, 3, 4] [.pushBack 6, .shift, .pushFront 7, .pushBack 8, .pop, .shift] := within_of_lens (by decide +kernel)
theorem capacity_a : capacity 1 stA = .ok 5 stA := rfl
theorem scale_a : ∀ c, arrCfg.scale c = c + c / 2 := fun _ => rfl
theorem env_a : envA 1 = .val [2, 3, 4] := rfl

-- The bound on memory: 8 cells for at most 5 elements at a time, for any calls, such as those of `within_a`.
example (ds : List (Dq Nat)) (hw : Within 5 [2, 3, 4] ds) : (perform arrCfg 1 ds stA).Ok fun _ s' =>
    ∃ c', capacity 1 s' = .ok c' s' ∧ c' ≤ max 5 (5 + 5 / 2 + 1) :=
  c112_bounded_code arrCfg_valid arrCfg_physical scale_a reachA env_a hw capacity_a

-- Five elements in a full buffer: 6 rounds move 4 elements each, and so does any number of rounds.
example : queueMoved arrCfg 0 ([6, 7, 8, 9, 10, 11].flatMap fun x => [.shift, .pushBack x]) stQ = 24 := by decide +kernel
theorem memory_q (i n : Nat) (hn : n ≤ max ([1, 2, 3, 4, 5].length + 1) (peak arrCfg.scale [1, 2, 3, 4, 5].length)) :
    arrCfg.allocOk i n = true := by
  have : max ([1, 2, 3, 4, 5].length + 1) (peak arrCfg.scale [1, 2, 3, 4, 5].length) = 7 := by decide +kernel
  rw [this] at hn
  show decide (n < maxCells) = true
  exact decide_eq_true (Nat.lt_of_le_of_lt hn (by decide))

theorem env_q : (Env.empty.upd 0 (.val [1, 2, 3, 4, 5]) : Env Nat) 0 = .val [1, 2, 3, 4, 5] := rfl
theorem unshared_q : isShared 0 stQ = .ok false stQ := rfl
theorem capacity_q : capacity 0 stQ = .ok 5 stQ := rfl

example (xs : List Nat) : queueMoved arrCfg 0 (xs.flatMap fun x => [.shift, .pushBack x]) stQ = xs.length * 4 :=
  c112_refuted_cost (q := [1, 2, 3, 4, 5]) (o := 0) arrCfg_valid arrCfg_physical rfl reachQ env_q (by simp) unshared_q capacity_q memory_q xs

/-- The same Array after `reserve(10)`. -/
def stQ2 : St Nat := (exec arrCfg stQ [.reserve 0 10]).getD {}

theorem reachQ2 : Reach arrCfg stQ2 (Env.empty.upd 0 (.val [1, 2, 3, 4, 5])) :=
  Reach.next arrCfg_valid arrCfg_physical reachQ (op := .reserve 0 10) (x := .unit) ⟨⟨_, rfl⟩, rfl, fun h => nomatch h⟩ rfl (fun h => h)
    (Or.inl ⟨rfl, rfl⟩)

theorem unshared_q2 : isShared 0 stQ2 = .ok false stQ2 := rfl
theorem capacity_q2 : capacity 0 stQ2 = .ok 10 stQ2 := rfl
theorem within_q : Within 5 [1, 2, 3, 4, 5] ([6, 7, 8, 9, 10, 11].flatMap fun x => [.shift, .pushBack x]) := within_of_lens (by decide +kernel)

-- With room for ten: 12 calls move 4 elements, the bound is 22.
example : queueMoved arrCfg 0 ([6, 7, 8, 9, 10, 11].flatMap fun x => [.shift, .pushBack x]) stQ2 ≤ 10 + 12 :=
  c112_cost_partial (m := 5) (c := 10) arrCfg_valid arrCfg_physical reachQ2 (o := 0) (q := [1, 2, 3, 4, 5]) env_q within_q (by simp) unshared_q2 capacity_q2 (by decide)
example : queueMoved arrCfg 0 ([6, 7, 8, 9, 10, 11].flatMap fun x => [.shift, .pushBack x]) stQ2 = 4 := by decide +kernel

end Bdlib.Rca
