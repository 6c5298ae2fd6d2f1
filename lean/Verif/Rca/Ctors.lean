import Verif.Rca.Ops4

/-!
# Specifications: constructors, `operator=(const char*)`, `substring`, `c_str`
-/

namespace Bdlib.Rca
open Bdlib Bdlib.Spec

variable {T : Type} {cfg : Cfg T}

theorem sat_onThrow {α : Type} {m : M T α} {c : M T Unit} {s : St T} {Q : α → St T → Prop}
    {E E' : Exc → St T → Prop} (h : (m s).Sat Q E')
    (hc : ∀ e s', E' e s' → (c s').Sat (fun _ s'' => E e s'') (fun _ _ => False)) :
    (m.onThrow c s).Sat Q E := by
  unfold M.onThrow
  cases hm : m s with
  | ok a s' => rw [hm] at h; exact h
  | throw e s' =>
    rw [hm] at h
    have := hc e s' h
    simp only
    cases hcs : c s' with
    | ok u s'' => rw [hcs] at this; exact this
    | throw _ _ => rw [hcs] at this; exact this
    | ub => rw [hcs] at this; exact this
  | ub => rw [hm] at h; exact h

/-! ## Virtual calls inside constructors -/

theorem need_base (cfg : Cfg T) (n : Nat) : cfg.base.need n = n := by
  unfold Cfg.need Cfg.base; split <;> simp_all

theorem wf_base {s : St T} (h : WF cfg s) : WF cfg.base s :=
  ⟨fun o ob a ho hr => by
      obtain ⟨b, hb, hle⟩ := h.le ho hr
      exact ⟨b, hb, by rw [need_base]; exact hle⟩,
    h.refs, h.hash, h.gens, Or.inl rfl⟩

/-- Back from the base class view: only the object under construction needs checking. -/
theorem wf_of_base {s s' : St T} {o : Nat} (h : WF cfg s) (hf : Frame s s' o) (h' : WF cfg.base s')
    (ho : ∀ ob a b, s'.obj o = some ob → ob.ref = some a → s'.blk a = some b →
      ob.offset + cfg.need ob.sublen ≤ b.cells.length) : WF cfg s' := by
  refine ⟨?_, h'.refs, h'.hash, h'.gens, h.valid⟩
  intro o1 ob1 a h1 hr
  obtain ⟨b', hb', hle'⟩ := h'.bounds o1 ob1 a h1 hr
  refine ⟨b', hb', ?_⟩
  by_cases he : o1 = o
  · subst he
    exact ho ob1 a b' h1 hr hb'
  · obtain ⟨hobj, hvis⟩ := hf o1 he
    rw [hobj] at h1
    obtain ⟨b, hb, hle⟩ := h.bounds o1 ob1 a h1 hr
    have := hvis ob1 a h1 hr
    rw [hb', hb] at this
    simp only [Option.map_some, Block.vis, Option.some.injEq, Prod.mk.injEq] at this
    rw [this.2]; exact hle

theorem rcaReserve_base (o n : Nat) (scale : Nat → Nat) :
    (rcaReserve cfg.base o n scale : M T Unit) = rcaReserve cfg o n scale := rfl

/-- Destruction of an object under construction (as a base class object). -/
theorem destroy_base {s0 s : St T} {o : Nat} {ob : Obj} (h0 : WF cfg s0) (hwf : WF cfg.base s) (hf : Frame s0 s o)
    (ho : s.obj o = some ob) {E : St T → Prop}
    (hE : ∀ s', WF cfg s' → Frame s0 s' o → s'.obj o = none → E s') :
    (destroy cfg.base o s).Sat (fun _ s' => E s') (fun _ _ => False) := by
  refine sat_mono (destroy_spec hwf ho) ?_ (fun _ _ h => h)
  rintro _ s' ⟨h1, h2, h3, h4⟩
  refine hE s' ?_ (hf.trans h2) h3
  refine wf_of_base h0 (hf.trans h2) h1 ?_
  intro ob1 a b h
  rw [h3] at h; cases h

/-- State right after the members of a new object were initialised. -/
theorem ready_new {s : St T} (hwf : WF cfg s) :
    Ready cfg s { s with objs := s.objs ++ [some {}] } s.objs.length {} [] := by
  obtain ⟨hwfE, hfrE, hoE⟩ := wf_newObj (cfg := cfg) hwf (ob := {}) rfl (fun h => absurd rfl h)
  exact ⟨hwfE, hfrE, hoE, rfl, shared_none hoE rfl, rfl⟩

theorem ctor_spec {s : St T} (hwf : WF cfg s) : Creates cfg s [] (ctor s) := by
  have h := ready_new hwf
  exact ⟨rfl, h.wf, h.frame, by rw [view_eq h.obj]; rfl⟩

/-- The size constructor, seen by the constructors that go on from there: an empty object, for
`n > 0` sole owner of a buffer with room for `n` elements. -/
theorem sizeCtor_sat {s : St T} (hwf : WF cfg s) {n : Nat} {Q : Nat → St T → Prop} {E : Exc → St T → Prop}
    (h0 : n = 0 → ∀ s', Ready cfg s s' s.objs.length {} [] → Q s.objs.length s')
    (h1 : n ≠ 0 → ∀ s' ob a b, Own cfg s s' s.objs.length ob a b → ob.sublen = 0 →
      ob.offset + n ≤ b.cells.length → Q s.objs.length s')
    (hE : ∀ s', WF cfg s' → Frame s s' s.objs.length → s'.obj s.objs.length = none → E .badAlloc s') :
    (sizeCtor cfg n s).Sat Q E := by
  have hnew := ready_new hwf
  unfold sizeCtor
  apply sat_newObj
  by_cases hn : n = 0
  · rw [if_neg (by simpa using hn)]
    exact h0 hn _ hnew
  · rw [if_pos hn]
    apply sat_bind
    refine sat_onThrow (E' := fun e s' => e = .badAlloc ∧ WF cfg s' ∧ Frame s s' s.objs.length ∧
      ∃ ob, s'.obj s.objs.length = some ob) ?_ ?_
    · show (rcaReserve cfg _ n id _).Sat _ _
      refine rcaReserve_own hnew ?_ (fun s' ob' h1 h2 h3 _ => ⟨rfl, h1, h2, ob', h3⟩)
      intro s' ob' a b' how hsl _ hroom _
      exact h1 hn s' ob' a b' how hsl hroom
    · rintro e s' ⟨rfl, hw, hf, ob, ho⟩
      exact destroy_base hwf (wf_base hw) hf ho hE

theorem sizeCtor_spec {s : St T} (hwf : WF cfg s) (n : Nat) : Creates cfg s [] (sizeCtor cfg n s) := by
  refine sizeCtor_sat hwf (fun _ s' h => ?_) (fun _ s' ob a b h hsl _ => ?_)
    (fun s' h1 h2 h3 => ⟨rfl, h1, h2, h3⟩)
  · exact ⟨rfl, h.wf, h.frame, by rw [view_eq h.obj]; rfl⟩
  · exact ⟨rfl, h.wf, h.frame, by rw [h.view, hsl, window_zero]⟩

/-- Constructors whose body is a mutator run as a base class object: fine if no spare cell is
promised for the result. -/
theorem creates_of_mutates_base {s s1 : St T} (hwf : WF cfg s) (hslack : cfg.slack = 0) {o : Nat} {v0 v : List T}
    {m : M T Unit} (hwf1 : WF cfg s1) (hf1 : Frame s s1 o)
    (hm : Mutates cfg.base s1 o v0 v (m s1)) {Q : Unit → St T → Prop} {E : Exc → St T → Prop}
    (hQ : ∀ s', WF cfg s' → Frame s s' o → s'.view o = some v → Q () s')
    (hE : ∀ s', WF cfg s' → Frame s s' o → s'.obj o = none → E .badAlloc s') :
    (m.onThrow (destroy cfg.base o) s1).Sat Q E := by
  refine sat_onThrow (E' := fun e s' => e = .badAlloc ∧ WF cfg.base s' ∧ Frame s1 s' o ∧ ∃ ob, s'.obj o = some ob)
    (sat_mono hm ?_ ?_) ?_
  · rintro _ s' ⟨h1, h2, h3⟩
    refine hQ s' (wf_of_base hwf1 h2 h1 ?_) (hf1.trans h2) h3
    intro ob a b ho hr hb
    obtain ⟨b', hb', hle⟩ := h1.bounds o ob a ho hr
    rw [hb] at hb'; cases hb'
    rw [need_base] at hle
    unfold Cfg.need
    rw [hslack]
    split <;> omega
  · rintro e s' ⟨he, h1, h2, h3⟩
    obtain ⟨ob, ho, _⟩ := view_some h3
    exact ⟨he, h1, h2, ob, ho⟩
  · rintro e s' ⟨rfl, h1, h2, ob, ho⟩
    exact destroy_base hwf h1 (hf1.trans h2) ho hE

theorem fillCtor_spec {s : St T} (hwf : WF cfg s) (hslack : cfg.slack = 0) (n : Nat) (x : T) :
    Creates cfg s (List.replicate n x) (fillCtor cfg n x s) := by
  have hnew := ready_new hwf
  unfold fillCtor Creates
  apply sat_newObj
  apply sat_bind
  have hv : ({ s with objs := s.objs ++ [some {}] } : St T).view s.objs.length = some [] := by
    rw [view_eq hnew.obj]; rfl
  refine creates_of_mutates_base hwf hslack hnew.wf hnew.frame
    (resizeFill_grow (wf_base hnew.wf) hv (Nat.zero_le n) (by intro h; cases h)) ?_ (fun s' h1 h2 h3 => ⟨rfl, h1, h2, h3⟩)
  intro s' h1 h2 h3
  exact ⟨rfl, h1, h2, by simpa using h3⟩

theorem rangeCtor_spec {s : St T} (hwf : WF cfg s) (hslack : cfg.slack = 0) (xs : List T) :
    Creates cfg s xs (rangeCtor cfg xs s) := by
  unfold rangeCtor Creates
  refine sat_bind' (sizeCtor_spec hwf xs.length) ?_ (fun _ _ h => h)
  rintro o s1 ⟨rfl, hw, hf, hv⟩
  apply sat_bind
  refine creates_of_mutates_base hwf hslack hw hf
    (insertRange_spec (wf_base hw) hv (Nat.zero_le 0)) ?_ (fun s' h1 h2 h3 => ⟨rfl, h1, h2, h3⟩)
  intro s' h1 h2 h3
  exact ⟨rfl, h1, h2, by simpa using h3⟩

theorem writeRange_nil {s : St T} {o i : Nat} {ob : Obj} (ho : s.obj o = some ob) :
    writeRange o i ([] : List T) s = .ok () s := by
  unfold writeRange
  rw [bind_ok (getObj_eq ho)]
  rfl

theorem onThrow_ok {α : Type} {m : M T α} {c : M T Unit} {s : St T} {Q : α → St T → Prop}
    {E : Exc → St T → Prop} (h : (m s).Sat Q (fun _ _ => False)) : (m.onThrow c s).Sat Q E :=
  sat_onThrow h (fun _ _ h => h.elim)

theorem listCtor_spec {s : St T} (hwf : WF cfg s) (hslack : cfg.slack = 0) (xs : List T) :
    Creates cfg s xs (listCtor cfg xs s) := by
  unfold listCtor Creates
  apply sat_bind
  apply sizeCtor_sat hwf
  · intro h0 s' h
    have : xs = [] := List.length_eq_zero_iff.mp h0
    subst this
    apply sat_bind
    apply onThrow_ok
    apply sat_of_eq_ok (writeRange_nil h.obj)
    apply sat_getObj h.obj
    apply sat_putObj_last
    have e : ({ ({} : Obj) with sublen := ([] : List T).length } : Obj) = {} := rfl
    rw [e, setObj_self h.obj]
    exact ⟨rfl, h.wf, h.frame, by rw [view_eq h.obj]; rfl⟩
  · intro hn s' ob a b how hsl hroom
    apply sat_bind
    apply onThrow_ok
    apply sat_bind
    apply writeRange_own how (by omega)
    intro s3 how3
    have hlen : (overwrite b.cells (ob.offset + 0) xs).length = b.cells.length := overwrite_length (by omega)
    apply sat_getObj how3.obj
    apply sat_putObj_last
    have how4 := how3.setObj (ob' := { ob with sublen := xs.length }) how3.ref how3.hash
      (by simp only [hlen]; unfold Cfg.need; rw [hslack]; split <;> omega)
    refine ⟨rfl, how4.wf, how4.frame, ?_⟩
    rw [how4.view]
    simp only [Nat.add_zero]
    rw [window_overwrite_self (by omega)]
  · exact fun s' h1 h2 h3 => ⟨rfl, h1, h2, h3⟩

theorem need_le_succ (hc : cfg.Valid) (n : Nat) : cfg.need n ≤ n + 1 := by
  unfold Cfg.need
  rcases hc with h | h <;> split <;> omega

theorem window_take {cells : List T} {i m n : Nat} (h : m ≤ n) : window cells i m = (window cells i n).take m := by
  unfold window
  rw [List.take_take, Nat.min_eq_left h]

theorem strCtor_spec {s : St T} (hwf : WF cfg s) (nul : T) (xs : List T) :
    Creates cfg s xs (strCtor cfg nul xs s) := by
  unfold strCtor Creates
  apply sat_bind
  apply sizeCtor_sat hwf
  · intro h0; omega
  · intro hn s' ob a b how hsl hroom
    apply sat_bind
    apply writeRange_own how (by omega)
    intro s3 how3
    have hlen : (overwrite b.cells (ob.offset + 0) xs).length = b.cells.length := overwrite_length (by omega)
    apply sat_bind
    apply writeRange_own how3 (by simp only [hlen, List.length_singleton]; omega)
    intro s4 how4
    have hlen4 : (overwrite (overwrite b.cells (ob.offset + 0) xs) (ob.offset + xs.length) [nul]).length
        = b.cells.length := by
      rw [overwrite_length (by simp only [hlen, List.length_singleton]; omega), hlen]
    apply sat_getObj how4.obj
    apply sat_putObj
    have hnr := need_le_succ hwf.valid xs.length
    have how5 := how4.setObj (ob' := { ob with sublen := xs.length }) how4.ref how4.hash
      (by simp only [hlen4]; omega)
    refine ⟨rfl, how5.wf, how5.frame, ?_⟩
    rw [how5.view]
    simp only
    rw [window_overwrite_after (Nat.le_refl _) (by rw [hlen]; omega)]
    simp only [Nat.add_zero]
    rw [window_overwrite_self (by omega)]
  · exact fun s' h1 h2 h3 => ⟨rfl, h1, h2, h3⟩

theorem charCtor_spec {s : St T} (hwf : WF cfg s) (nul c : T) :
    Creates cfg s [c] (charCtor cfg nul c s) := by
  have hnew := ready_new hwf
  unfold charCtor Creates
  apply sat_newObj
  apply sat_bind
  refine sat_onThrow (E' := fun e s' => e = .badAlloc ∧ WF cfg s' ∧ Frame s s' s.objs.length ∧
      ∃ ob, s'.obj s.objs.length = some ob)
    (rcaReserve_own hnew ?_ (fun s' ob' h1 h2 h3 _ => ⟨rfl, h1, h2, ob', h3⟩)) ?_
  · intro s1 ob a b how hsl _ hroom _
    simp only [List.length_nil] at hsl
    apply sat_bind
    apply writeRange_own how (by simp only [List.length_singleton]; omega)
    intro s2 how2
    have hlen : (overwrite b.cells (ob.offset + 0) [c]).length = b.cells.length :=
      overwrite_length (by simp only [List.length_singleton]; omega)
    apply sat_getObj how2.obj
    apply sat_putObj
    have hnr := need_le_succ hwf.valid (0 + 1)
    have how3 := how2.setObj (ob' := { ob with sublen := ob.sublen + 1 }) how2.ref how2.hash
      (by simp only [hlen, hsl]; omega)
    apply sat_bind
    apply writeRange_own how3 (by simp only [hlen, List.length_singleton]; omega)
    intro s4 how4
    refine ⟨rfl, how4.wf, how4.frame, ?_⟩
    rw [how4.view]
    simp only [hsl]
    rw [window_overwrite_after (by omega) (by rw [hlen]; omega)]
    simp only [Nat.add_zero]
    exact congrArg some (window_overwrite_self (vs := [c]) (by simp only [List.length_singleton]; omega))
  · rintro e s' ⟨rfl, hw, hf, ob, ho⟩
    refine sat_mono (destroy_spec hw ho) ?_ (fun _ _ h => h)
    rintro _ s'' ⟨h1, h2, h3, _⟩
    exact ⟨rfl, h1, hf.trans h2, h3⟩

/-! ## `String(const char*)`: the length is set before the buffer exists -/

theorem rcaReserve_fresh {s : St T} {o n : Nat} {scale : Nat → Nat} {ob : Obj} (ho : s.obj o = some ob)
    (hr : ob.ref = none) (hn : 0 < n) :
    (rcaReserve cfg o n scale s).Sat
      (fun _ s' => s' = ({ s with
          heap := s.heap ++ [some { gen := s.gen + 2, cells := junkFrom cfg (s.gen + 2) 0 (max (scale 0) n), refs := 1 }],
          gen := s.gen + 2 } : St T).setObj o (some { ob with ref := some s.heap.length, offset := 0 }))
      (fun e s' => e = .badAlloc ∧ (s' = { s with gen := s.gen + 1 } ∨
        s' = ({ s with heap := s.heap ++ [some { gen := 0, cells := [], refs := 1 }],
                       gen := s.gen + 2 } : St T).setObj o (some { ob with ref := some s.heap.length }))) := by
  unfold rcaReserve
  apply sat_getObj ho
  rw [hr]
  apply sat_bind
  rw [newRef_eq]
  split
  · show ((putObj o _ >>= _) _).Sat _ _
    apply sat_putObj
    rw [pure_bind']
    have hlo := St.obj_lt ho
    have hb : (({ s with gen := s.gen + 1, heap := s.heap ++ [some { gen := 0, cells := [], refs := 1 }] } : St T).setObj o
        (some { ob with ref := some s.heap.length })).blk s.heap.length = some { gen := 0, cells := [], refs := 1 } := by
      simp [St.blk, St.setObj]
    apply sat_bind
    unfold arefReserve
    apply sat_getBlk hb
    simp only [List.length_nil]
    rw [if_pos hn]
    apply sat_alloc
    · refine sat_ite (fun _ => ?_) (fun hc => absurd trivial hc)
      apply sat_putBlk
      show ((getObj o >>= _) _).Sat _ _
      apply sat_getObj (ob := { ob with ref := some s.heap.length })
      · show St.obj _ o = _
        simp [St.obj, St.setObj, St.setBlk, hlo]
      · show _ = _
        simp [St.setObj, St.setBlk]
    · refine ⟨rfl, Or.inr ?_⟩
      simp [St.setObj]
  · exact ⟨rfl, Or.inl rfl⟩

/-- The destructor does not look at the length, offset or hash. -/
theorem destroy_congr {s : St T} {o : Nat} {ob ob' : Obj} (ho : s.obj o = some ob) (hr : ob'.ref = ob.ref) :
    destroy cfg o (s.setObj o (some ob')) = destroy cfg o s := by
  have hlo := St.obj_lt ho
  have ho' : (s.setObj o (some ob')).obj o = some ob' := St.obj_setObj_self _ hlo
  have hss : ∀ (t : St T) (x y : Option Obj), (t.setObj o x).setObj o y = t.setObj o y := by
    intro t x y; simp [St.setObj]
  unfold destroy
  cases hra : ob.ref with
  | none =>
    have h1 : ∀ (t : St T) (x : Obj), t.obj o = some x → x.ref = none → dtorBody cfg o t = .ok () t := by
      intro t x hx hx'
      unfold dtorBody
      split
      · unfold cleanse
        rw [bind_ok (getObj_eq hx), hx']; rfl
      · rfl
    have h2 : ∀ (t : St T) (x : Obj), t.obj o = some x → x.ref = none → checkDeallocRef o t = .ok () t := by
      intro t x hx hx'
      unfold checkDeallocRef
      rw [bind_ok (getObj_eq hx), hx']; rfl
    rw [bind_ok (h1 s ob ho hra), bind_ok (h1 _ ob' ho' (hr.trans hra)), bind_ok (h2 s ob ho hra),
      bind_ok (h2 _ ob' ho' (hr.trans hra))]
    show Res.ok () _ = Res.ok () _
    rw [hss]
  | some a =>
    cases hb : s.blk a with
    | none =>
      have h1 : ∀ (t : St T) (x : Obj), t.obj o = some x → x.ref = some a → t.blk a = none →
          (dtorBody cfg o t = .ok () t ∨ dtorBody cfg o t = .ub) ∧ checkDeallocRef o t = .ub := by
        intro t x hx hx' hbt
        constructor
        · unfold dtorBody
          split
          · right
            unfold cleanse
            rw [bind_ok (getObj_eq hx), hx']
            show M.bind (getBlk a) _ t = _
            simp [M.bind, getBlk, hbt]
          · exact Or.inl rfl
        · unfold checkDeallocRef
          rw [bind_ok (getObj_eq hx), hx']
          show M.bind (M.bind (getBlk a) _) _ t = _
          simp [M.bind, getBlk, hbt]
      have hub : ∀ (t : St T) (x : Obj), t.obj o = some x → x.ref = some a → t.blk a = none →
          (do dtorBody cfg o; checkDeallocRef o; dropObj o : M T Unit) t = .ub := by
        intro t x hx hx' hbt
        obtain ⟨hd, hc⟩ := h1 t x hx hx' hbt
        rcases hd with hd | hd
        · rw [bind_ok hd]
          show M.bind _ _ t = _
          simp only [M.bind, hc]
        · show M.bind _ _ t = _
          simp only [M.bind, hd]
      rw [hub s ob ho hra hb, hub _ ob' ho' (hr.trans hra) hb]
    | some b =>
      -- the common course of events
      have hlb := St.blk_lt hb
      have hgo : ∀ (t : St T) (x : Obj), t.obj o = some x → x.ref = some a → t.blk a = some b →
          ∃ c : List T, (c = b.cells ∨ c = (List.range b.cells.length).map (cfg.wipe b.gen)) ∧
          c = (if cfg.nul.isSome ∧ b.refs = 1 then (List.range b.cells.length).map (cfg.wipe b.gen) else b.cells) ∧
          (do dtorBody cfg o; checkDeallocRef o; dropObj o : M T Unit) t =
            .ok () (if b.refs - 1 < 1 then
              ({ (t.setBlk a none) with freed := c :: t.freed }).setObj o none
              else (t.setBlk a (some { b with cells := c, refs := b.refs - 1 })).setObj o none) := by
        intro t x hx hx' hbt
        have hlt := St.blk_lt hbt
        have hstep : ∀ c : List T, ∀ u : St T, u.objs = t.objs → u.heap = t.heap.set a (some { b with cells := c }) →
            u.gen = t.gen → u.freed = t.freed →
            (do checkDeallocRef o; dropObj o : M T Unit) u =
            .ok () (if b.refs - 1 < 1 then
              ({ (t.setBlk a none) with freed := c :: t.freed }).setObj o none
              else (t.setBlk a (some { b with cells := c, refs := b.refs - 1 })).setObj o none) := by
          intro c u hu1 hu2 hu3 hu4
          have hux : u.obj o = some x := by unfold St.obj; rw [hu1]; exact hx
          have hub : u.blk a = some { b with cells := c } := by
            unfold St.blk; rw [hu2]; simp [hlt]
          have hlu : a < u.heap.length := St.blk_lt hub
          have hcd : checkDeallocRef o u = .ok () (if b.refs - 1 < 1 then
              ({ (u.setBlk a none) with freed := c :: u.freed }).setObj o (some { x with ref := none })
              else (u.setBlk a (some { b with cells := c, refs := b.refs - 1 }))) := by
            unfold checkDeallocRef
            rw [bind_ok (getObj_eq hux), hx']
            have hdec : decRef (some a) u = .ok () (u.setBlk a (some { b with cells := c, refs := b.refs - 1 })) := by
              show M.bind (getBlk a) _ u = _
              simp only [M.bind, getBlk, hub]; rfl
            show (decRef (some a) >>= _) u = _
            rw [bind_ok hdec]
            have hgb : getBlk a (u.setBlk a (some { b with cells := c, refs := b.refs - 1 })) =
                .ok { b with cells := c, refs := b.refs - 1 } (u.setBlk a (some { b with cells := c, refs := b.refs - 1 })) := by
              simp only [getBlk, St.blk_setBlk_self _ hlu]
            rw [bind_ok hgb]
            simp only
            by_cases hlt1 : b.refs - 1 < 1
            · rw [if_pos hlt1, if_pos hlt1]
              show Res.ok () _ = Res.ok () _
              simp [St.setBlk, St.setObj]
            · rw [if_neg hlt1, if_neg hlt1]; rfl
          rw [bind_ok hcd]
          show Res.ok () _ = Res.ok () _
          congr 1
          split <;> simp [St.setBlk, St.setObj, hu1, hu2, hu3, hu4]
        by_cases hw : cfg.nul.isSome ∧ b.refs = 1
        · refine ⟨(List.range b.cells.length).map (cfg.wipe b.gen), Or.inr rfl, (if_pos hw).symm, ?_⟩
          have hd : dtorBody cfg o t = .ok () (t.setBlk a (some { b with
              cells := (List.range b.cells.length).map (cfg.wipe b.gen) })) := by
            unfold dtorBody
            rw [if_pos hw.1]
            unfold cleanse
            rw [bind_ok (getObj_eq hx), hx']
            show M.bind (getBlk a) _ t = _
            simp only [M.bind, getBlk, hbt]
            rw [if_pos hw.2]; rfl
          rw [bind_ok hd]
          exact hstep _ _ rfl rfl rfl rfl
        · refine ⟨b.cells, Or.inl rfl, (if_neg hw).symm, ?_⟩
          have hd : dtorBody cfg o t = .ok () t := by
            unfold dtorBody
            by_cases hn : cfg.nul.isSome
            · rw [if_pos hn]
              unfold cleanse
              rw [bind_ok (getObj_eq hx), hx']
              show M.bind (getBlk a) _ t = _
              simp only [M.bind, getBlk, hbt]
              rw [if_neg (fun h => hw ⟨hn, h⟩)]; rfl
            · rw [if_neg hn]; rfl
          rw [bind_ok hd]
          refine hstep b.cells t rfl ?_ rfl rfl
          have : t.heap[a]? = some (some b) := by
            unfold St.blk at hbt
            cases hx : t.heap[a]? with
            | none => rw [hx] at hbt; cases hbt
            | some y => rw [hx] at hbt; simp at hbt; rw [hbt]
          symm
          apply List.ext_getElem?
          intro i
          rw [List.getElem?_set]
          split
          · rename_i hi; rw [← hi, this]
          · rfl
      obtain ⟨c1, _, hc1, h1⟩ := hgo s ob ho hra hb
      obtain ⟨c2, _, hc2, h2⟩ := hgo _ ob' ho' (hr.trans hra) hb
      rw [h1, h2, hc1, hc2]
      congr 1
      split <;> simp [St.setBlk, St.setObj]

theorem cstrCtor_spec {s : St T} (hwf : WF cfg s) (nul : T) (xs : List T) :
    Creates cfg s xs (cstrCtor cfg nul xs s) := by
  have hnew := ready_new hwf
  unfold cstrCtor Creates
  apply sat_newObj
  cases xs with
  | nil =>
    exact ⟨rfl, hnew.wf, hnew.frame, by rw [view_eq hnew.obj]; rfl⟩
  | cons x xs =>
    rw [if_neg (by simp)]
    apply sat_getObj hnew.obj
    apply sat_putObj
    generalize hs1 : ({ s with objs := s.objs ++ [some {}] } : St T) = s1 at *
    generalize ho : s.objs.length = o at *
    have hlo := St.obj_lt hnew.obj
    generalize hys : x :: xs = ys
    have hpos : 0 < ys.length := by rw [← hys]; simp
    have ho2 : (s1.setObj o (some { ({} : Obj) with sublen := ys.length })).obj o =
        some { ({} : Obj) with sublen := ys.length } := St.obj_setObj_self _ hlo
    apply sat_bind
    refine sat_onThrow (sat_mono (rcaReserve_fresh ho2 rfl (n := ys.length + 1) (Nat.succ_pos _)) ?_
      (fun _ _ h => h)) ?_
    · rintro _ s3 hs3
      have hjl := junkFrom_length cfg (s1.gen + 2) 0 (max (id 0) (ys.length + 1))
      have hnr := need_le_succ hwf.valid ys.length
      obtain ⟨hw, hf, ho3, hb3⟩ := wf_attachNew (cfg := cfg) (s := s1) (o := o) (ob := {})
        (ob' := { ref := some s1.heap.length, offset := 0, sublen := ys.length, hash := 0 })
        (b := { gen := s1.gen + 2, cells := junkFrom cfg (s1.gen + 2) 0 (max (id 0) (ys.length + 1)), refs := 1 })
        (g := s1.gen + 2) hnew.wf hnew.obj rfl rfl rfl (by simp only [hjl]; omega) rfl (Nat.le_refl _) (by omega)
      have he : s3 = ({ s1 with
          heap := s1.heap ++ [some { gen := s1.gen + 2, cells := junkFrom cfg (s1.gen + 2) 0 (max (id 0) (ys.length + 1)), refs := 1 }],
          gen := s1.gen + 2 } : St T).setObj o
            (some { ref := some s1.heap.length, offset := 0, sublen := ys.length, hash := 0 }) := by
        rw [hs3]; simp [St.setObj]
      rw [← he] at hw hf ho3 hb3
      have how : Own cfg s s3 o _ _ _ := ⟨hw, hnew.frame.trans hf, ho3, rfl, hb3, rfl, rfl⟩
      apply sat_bind
      apply writeRange_own how
        (by simp only [hjl, List.length_append, List.length_singleton]; omega)
      intro s4 how4
      refine ⟨rfl, how4.wf, how4.frame, ?_⟩
      rw [how4.view]
      simp only [Nat.add_zero]
      rw [window_take (n := (ys ++ [nul]).length) (by simp),
        window_overwrite_self (by simp only [hjl, List.length_append, List.length_singleton]; omega)]
      simp
    · rintro e s' ⟨rfl, h | h⟩
      · have hw := wf_gen hnew.wf (s1.gen + 1) (by omega) s1.freed
        have he : s' = ({ s1 with gen := s1.gen + 1 } : St T).setObj o (some { sublen := ys.length }) := by
          rw [h]; simp [St.setObj]
        rw [he, destroy_congr (s := ({ s1 with gen := s1.gen + 1 } : St T)) (ob := {}) (ob' := { sublen := ys.length }) hnew.obj rfl]
        refine sat_mono (destroy_spec hw hnew.obj) ?_ (fun _ _ h => h)
        rintro _ s'' ⟨h1, h2, h3, _⟩
        exact ⟨rfl, h1, hnew.frame.trans (Frame.trans (fun o' _ => ⟨rfl, fun _ _ _ _ => rfl⟩) h2), h3⟩
      · obtain ⟨hw, hf, ho3, hb3⟩ := wf_attachNew (cfg := cfg) (s := s1) (o := o) (ob := {})
          (ob' := { ref := some s1.heap.length, offset := 0, sublen := 0, hash := 0 })
          (b := { gen := 0, cells := [], refs := 1 })
          (g := s1.gen + 2) hnew.wf hnew.obj rfl rfl rfl (by simp [Cfg.need]) rfl (by simp) (by omega)
        generalize hs3 : ({ s1 with heap := s1.heap ++ [some { gen := 0, cells := [], refs := 1 }], gen := s1.gen + 2 } : St T).setObj o
            (some { ref := some s1.heap.length, offset := 0, sublen := 0, hash := 0 }) = s3 at *
        have he : s' = s3.setObj o (some { ref := some s1.heap.length, sublen := ys.length }) := by
          rw [h, ← hs3]; simp [St.setObj]
        rw [he, destroy_congr (ob' := { ref := some s1.heap.length, sublen := ys.length }) ho3 rfl]
        refine sat_mono (destroy_spec hw ho3) ?_ (fun _ _ h => h)
        rintro _ s'' ⟨h1, h2, h3, _⟩
        exact ⟨rfl, h1, hnew.frame.trans (hf.trans h2), h3⟩

/-! ## `String::operator=(const char*)` -/

theorem Frame.len {s s' : St T} {o : Nat} (h : Frame s s' o) {o' : Nat} (hne : o' ≠ o) {ob : Obj}
    (ho : s.obj o' = some ob) : s'.obj o' = some ob := (h.obj hne).trans ho

/-- Assigns a C string; on `bad_alloc` the receiver is unchanged. -/
theorem assignCstr_spec {s : St T} (hwf : WF cfg s) {o : Nat} {ob : Obj} (ho : s.obj o = some ob) (nul : T)
    (xs : List T) :
    (assignCstr cfg nul o xs s).Sat
      (fun _ s' => WF cfg s' ∧ Frame s s' o ∧ s'.view o = some xs)
      (fun e s' => e = .badAlloc ∧ WF cfg s' ∧ (∀ o', s'.obj o' = s.obj o' ∧ s'.view o' = s.view o')) := by
  unfold assignCstr
  have hlo := St.obj_lt ho
  have hnone : s.obj s.objs.length = none := by simp [St.obj]
  refine sat_bind' (strCtor_spec hwf nul xs) ?_ ?_
  · rintro t s1 ⟨rfl, hw1, hf1, hv1⟩
    have hne : o ≠ s.objs.length := by omega
    obtain ⟨tb, htb, _⟩ := view_some hv1
    have ho1 := Frame.len hf1 hne ho
    refine sat_bind' (moveAssign_spec hw1 hne ho1 htb) ?_ (fun _ _ h => h.elim)
    rintro _ s2 ⟨hw2, hf2, ho2, hv2, hm2⟩
    refine sat_mono (destroy_spec hw2 hm2) ?_ (fun _ _ h => h.elim)
    rintro _ s3 ⟨hw3, hf3, ho3, _⟩
    refine ⟨hw3, ?_, ?_⟩
    · intro o' hne'
      by_cases he : o' = s.objs.length
      · subst he
        refine ⟨ho3.trans hnone.symm, ?_⟩
        intro ob' a h; rw [hnone] at h; cases h
      · obtain ⟨h1, h1'⟩ := hf1 o' he
        obtain ⟨h2, h2'⟩ := hf2 o' hne' he
        obtain ⟨h3, h3'⟩ := hf3 o' he
        refine ⟨h3.trans (h2.trans h1), ?_⟩
        intro ob' a hob hr
        rw [h3' ob' a (h2.trans (h1.trans hob)) hr, h2' ob' a (h1.trans hob) hr, h1' ob' a hob hr]
    · rw [hf3.view hne, hv2, hv1]
  · rintro e s1 ⟨rfl, hw, hf, hn⟩
    refine ⟨rfl, hw, ?_⟩
    intro o'
    by_cases he : o' = s.objs.length
    · subst he
      exact ⟨hn.trans hnone.symm, by simp [St.view, hn, hnone]⟩
    · exact ⟨hf.obj he, hf.view he⟩

/-! ## `substring` -/

theorem substring_spec {s : St T} (hwf : WF cfg s) {r : Nat} {v : List T} {start len : Int}
    (hv : s.view r = some v) (hok : SliceOk v.length start len) :
    (substring r start len s).Sat
      (fun o s' => o = s.objs.length ∧ WF cfg s' ∧ Frame s s' o ∧ s'.view o = some (sliceSpec v start len))
      (fun _ _ => False) := by
  obtain ⟨rb, hrb, _⟩ := view_some hv
  unfold substring
  refine sat_bind' (copyCtor_spec hwf hrb) ?_ (fun _ _ h => h)
  rintro o s1 ⟨rfl, hw1, hf1, _, hv1, _⟩
  refine sat_bind' (slice_spec hw1 (hv1.trans hv) hok) ?_ (fun _ _ h => h)
  rintro _ s2 ⟨hw2, hf2, hv2⟩
  exact ⟨rfl, hw2, hf1.trans hf2, hv2⟩

/-! ## `c_str` -/

theorem cStr_spec [DecidableEq T] {s : St T} (hwf : WF cfg s) (hslack : cfg.slack = 1) {nul : T} {o : Nat} {v : List T}
    (hv : s.view o = some v) :
    (cStr cfg nul o s).Sat
      (fun r s' => r = v ++ [nul] ∧ WF cfg s' ∧ Frame s s' o ∧ s'.view o = some v)
      (fun e s' => e = .badAlloc ∧ WF cfg s' ∧ Frame s s' o ∧
        s'.view o = some (if shared s o then [] else v)) := by
  obtain ⟨ob, ho, hvo, hl⟩ := obj_of_view hv
  unfold cStr
  apply sat_getObj ho
  apply sat_ite
  · intro h0
    have : v = [] := List.length_eq_zero_iff.mp (by omega)
    subst this
    exact ⟨rfl, hwf, Frame.refl _ _, hv⟩
  · intro h0
    have hcase : ob.ref = none ∨ ∃ a, ob.ref = some a := by cases ob.ref <;> simp
    rcases hcase with hr | ⟨a, hr⟩
    · exact absurd (St.viewOf_none_inv hr hvo).2.1 h0
    obtain ⟨b, hb, hle⟩ := hwf.bounds o ob a ho hr
    have hneed : cfg.need ob.sublen = ob.sublen + 1 := by unfold Cfg.need; rw [if_neg h0, hslack]
    rw [hneed] at hle
    have hwv : window b.cells ob.offset ob.sublen = v := by
      rw [St.viewOf_some hr hb (by omega)] at hvo; injection hvo
    apply sat_bind
    apply readRange_blk ho hr hb (by omega)
    apply sat_ite
    · intro hne
      refine sat_bind (aboutToModify_spec hwf hv (n := ob.sublen + 1) (by omega) ?_ mutates_exc)
      intro s1 ob1 a1 b1 how hsl hw hroom
      have hrm := le_room cfg (ob.sublen + 1)
      rw [hl] at hrm hroom ⊢
      apply sat_bind
      apply writeRange_own how (by simp only [List.length_singleton]; omega)
      intro s2 how2
      have hlen : (overwrite b1.cells (ob1.offset + v.length) [nul]).length = b1.cells.length :=
        overwrite_length (by simp only [List.length_singleton]; omega)
      apply readRange_blk how2.obj how2.ref how2.blk (by simp only [hlen]; omega)
      refine ⟨?_, how2.wf, how2.frame, ?_⟩
      · simp only [Nat.add_zero]
        have h1 : window (overwrite b1.cells (ob1.offset + v.length) [nul]) ob1.offset (v.length + 1) =
            window (overwrite b1.cells (ob1.offset + v.length) [nul]) ob1.offset v.length ++
            window (overwrite b1.cells (ob1.offset + v.length) [nul]) (ob1.offset + v.length) 1 := by
          unfold window
          rw [List.take_add, List.drop_drop]
        rw [h1, window_overwrite_after (Nat.le_refl _) (by omega), hw]
        congr 1
        exact window_overwrite_self (vs := [nul]) (by simp only [List.length_singleton]; omega)
      · rw [how2.view]
        simp only [hsl]
        rw [window_overwrite_after (Nat.le_refl _) (by omega), hw]
    · intro heq
      have heq : window b.cells (ob.offset + ob.sublen) 1 = [nul] := Classical.byContradiction heq
      apply readRange_blk ho hr hb (by omega)
      refine ⟨?_, hwf, Frame.refl _ _, hv⟩
      have h1 : window b.cells (ob.offset + 0) (ob.sublen + 1) =
          window b.cells ob.offset ob.sublen ++ window b.cells (ob.offset + ob.sublen) 1 := by
        unfold window
        rw [List.take_add, List.drop_drop, Nat.add_zero]
      rw [h1, heq, hwv]

end Bdlib.Rca
