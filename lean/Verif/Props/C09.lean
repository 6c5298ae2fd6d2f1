import Verif.Props.C06
import Verif.Props.C12

/-!
# C09 resize gives the requested length and keeps the common prefix
-/

namespace Bdlib.Rca
open Bdlib Bdlib.Spec

variable {T : Type} [DecidableEq T] {cfg : Cfg T}

/-- `resize(n, x)`.

Partial: a String must not be resized to `npos`, see `c09_refuted_npos`. -/
theorem c09_resize_fill_partial (hv : cfg.Valid) (hp : cfg.Physical) {s : St T} {env : Env T} (h : Reach cfg s env)
    {o n : Nat} {v : List T} (ho : env o = .val v) (hmax : IsStr cfg → n ≠ npos) (x : T) :
    Gives cfg s env (.resizeFill o n x) o (v.take n ++ List.replicate (n - v.length) x) := by
  refine gives_of hv hp h ⟨has_val ho, hmax⟩ fun out env' hpost => ?_
  simp only [Post, get_val ho] at hpost
  rcases hpost with h1 | ⟨_, h1⟩
  · exact Or.inl h1
  · exact Or.inr h1

/-- `resize(n)`: the added elements have unspecified values.  Partial as above. -/
theorem c09_resize_partial (hv : cfg.Valid) (hp : cfg.Physical) {s : St T} {env : Env T} (h : Reach cfg s env)
    {o n : Nat} {v : List T} (ho : env o = .val v) (hmax : IsStr cfg → n ≠ npos) :
    (∃ added, added.length = n - v.length ∧ GivesOk cfg s env (.resize o n) o (v.take n ++ added)) ∨
    OutOfMemory cfg s env (.resize o n) o := by
  obtain ⟨out, s', env', hres, hpost, hr⟩ := h.call hv hp (op := .resize o n) ⟨has_val ho, hmax⟩
  simp only [Post, get_val ho] at hpost
  rcases hpost with ⟨js, hl, rfl, rfl⟩ | ⟨_, hn⟩
  · exact Or.inl ⟨js, hl, s', _, result_ok hres, hr.shows hv hp Env.upd_self,
      fun p w hne hw => hr.shows hv hp (by rw [Env.upd_ne hne]; exact hw), hr⟩
  · have he := hn.1
    subst he
    exact Or.inr (noMem_out hv hp h (op := .resize o n) ⟨has_val ho, hmax⟩ hres (fun p hne => hn.frame hne) hr)

/-- Hence the new length is exactly `n`. -/
theorem c09_length {v added : List T} {n : Nat} (h : added.length = n - v.length) : (v.take n ++ added).length = n := by
  simp; omega

/-- Shrinking never fails and never allocates. -/
theorem c09_shrink (hv : cfg.Valid) (hp : cfg.Physical) {s : St T} {env : Env T} (h : Reach cfg s env)
    {o n : Nat} {v : List T} (ho : env o = .val v) (hn : n < v.length) (x : T) :
    GivesOk cfg s env (.resize o n) o (v.take n) ∧ GivesOk cfg s env (.resizeFill o n x) o (v.take n) := by
  have hmax : IsStr cfg → n ≠ npos := fun _ => by
    have := h.length_lt hv hp ho
    unfold maxCells at this; unfold npos; omega
  constructor
  · refine givesOk_of hv hp h ⟨has_val ho, hmax⟩ fun out env' hpost => ?_
    simp only [Post, get_val ho] at hpost
    rcases hpost with ⟨js, hl, h1⟩ | ⟨h1, _⟩
    · have : js = [] := List.length_eq_zero_iff.mp (by omega)
      subst this
      simpa using h1
    · omega
  · refine givesOk_of hv hp h ⟨has_val ho, hmax⟩ fun out env' hpost => ?_
    simp only [Post, get_val ho] at hpost
    rcases hpost with h1 | ⟨h1, _⟩
    · rw [show n - v.length = 0 by omega] at h1
      simpa using h1
    · omega

/-- Growing the shared subarray `{2,3,4}` leaves the array it came from alone. -/
example : ∃ s', run arrCfg (.resizeFill 1 5 9) stA = .ok .unit s' ∧ Shows s' 1 [2, 3, 4, 9, 9] := by
  refine ⟨_, rfl, rfl, fun i hi => ?_⟩
  match i, hi with
  | 0, _ => rfl
  | 1, _ => rfl
  | 2, _ => rfl
  | 3, _ => rfl
  | 4, _ => rfl
example : envA 1 = .val [2, 3, 4] ∧ envA 0 = .val [1, 2, 3, 4, 5] := ⟨rfl, rfl⟩

/-- The empty String. -/
theorem reachEmptyStr : Reach strCfg ((exec strCfg {} [.ctor]).getD {}) (Env.empty.upd 0 (.val [])) :=
  Reach.next strCfg_valid strCfg_physical .init (op := .ctor) (x := .obj 0) trivial rfl (fun h => h)
    ⟨0, rfl, rfl, rfl⟩

/-- `String s; s.resize(String::npos)` returns normally: the size computation wraps, nothing is
allocated, and `length()` is `npos`; reading the first element is undefined. -/
theorem c09_refuted_npos : ∃ s', Reach strCfg ((exec strCfg {} [.ctor]).getD {}) (Env.empty.upd 0 (.val [])) ∧
    run strCfg (.resize 0 npos) ((exec strCfg {} [.ctor]).getD {}) = .ok .unit s' ∧
    length 0 s' = .ok npos s' ∧ capacity 0 s' = .ok 0 s' ∧ read 0 0 s' = .ub := ⟨_, reachEmptyStr, rfl, rfl, rfl, rfl⟩

/-! ## `resize(npos)` in general -/

omit [DecidableEq T] in
theorem fails_of {α β : Type} {m : M T α} {f : α → M T β} {s : St T} (h1 : ∀ a s', m s = .ok a s' → NeverOk (f a s'))
    (h2 : ∀ e s', m s = .throw e s' → e = .badAlloc) : NeverOk ((m >>= f) s) := by
  change NeverOk (M.bind m f s)
  unfold M.bind
  cases hm : m s with
  | ub => exact .inl rfl
  | throw e s' => cases h2 e s' hm; exact .inr ⟨_, rfl⟩
  | ok a s' => exact h1 a s' hm

omit [DecidableEq T] in
theorem fails_first {α β : Type} {m : M T α} {f : α → M T β} {s : St T} (h : NeverOk (m s)) : NeverOk ((m >>= f) s) := by
  change NeverOk (M.bind m f s)
  unfold M.bind
  rcases h with h | ⟨s', h⟩
  · rw [h]; exact .inl rfl
  · rw [h]; exact .inr ⟨s', rfl⟩

omit [DecidableEq T] in
theorem reserve_zero_new {c : T} (hc : cfg.nul = some c) {s : St T} {o : Nat} {scale : Nat → Nat} (ho : s.obj o = some {}) :
    (reserve cfg o 0 scale s).Sat (fun _ s' => ∃ a b, s'.obj o = some { ref := some a } ∧ s'.blk a = some b ∧ b.cells = [])
      (fun e _ => e = .badAlloc) := by
  simp only [reserve, hc, strReserve, rcaReserve, newRef, bind, M.bind, getObj, ho, alloc]
  cases hok : cfg.allocOk (s.gen + 1) 1 with
  | false => rfl
  | true =>
    have hlt := St.obj_lt ho
    simp [putObj, pure, M.pure, arefReserve, bind, M.bind, getBlk, St.blk, St.setObj, St.obj, sub64, hlt, Res.Sat]

theorem growTo_npos_shared (hv : cfg.Valid) (hp : cfg.Physical) {s : St T} {env : Env T} (h : Reach cfg s env) (hstr : IsStr cfg)
    {o : Nat} {v : List T} (ho : env o = .val v) (hne : v ≠ []) (hs : isShared o s = .ok true s) : NeverOk (growTo cfg o npos s) := by
  obtain ⟨hwf, hcap, hA⟩ := h.inv hv hp
  obtain ⟨ob, hob, hvo, hl⟩ := obj_of_view (h.view_eq hv hp ho)
  obtain ⟨c, hc⟩ := Option.isSome_iff_exists.mp hstr
  have hsl : ob.sublen ≠ 0 := by
    rw [hl]
    exact fun e => hne (List.length_eq_zero_iff.mp e)
  have hsh := isShared_run hs
  have hup := wf_updObj (ob' := { ob with hash := 0 }) hwf hob rfl
    (by
      intro a b hr hb
      obtain ⟨b', hb', hle⟩ := hwf.bounds o ob a hob hr
      rw [hb] at hb'; cases hb'
      exact hle)
    (by intro hne; exact absurd rfl hne)
  obtain ⟨hwf1, hfr1, ho1⟩ := hup
  have hsh1 : shared (s.setObj o (some { ob with hash := 0 })) o = true := by
    have hcase : ob.ref = none ∨ ∃ a, ob.ref = some a := by cases ob.ref <;> simp
    rcases hcase with hr | ⟨a, hr⟩
    · rw [shared_none hob hr] at hsh; cases hsh
    · obtain ⟨b, hb, _⟩ := hwf.bounds o ob a hob hr
      rw [shared_eq ho1 hr (by exact hb), ← shared_eq hob hr hb]; exact hsh
  unfold growTo
  rw [if_neg (fun h => h ⟨hstr, rfl⟩)]
  refine fails_bind ?_
  rw [getObj_eq hob]
  refine fails_bind (m := putObj o { ob with hash := 0 }) (?_ : NeverOk _)
  have his : isShared o (s.setObj o (some { ob with hash := 0 })) = .ok true (s.setObj o (some { ob with hash := 0 })) := by
    have hsat := isShared_sat hwf1 ho1 (f := fun b => (pure b : M T Bool)) (Q := fun b t => b = true ∧ t = s.setObj o (some { ob with hash := 0 }))
      (E := fun _ _ => False) ⟨hsh1, rfl⟩
    change (M.bind (isShared o) _ _).Sat _ _ at hsat
    unfold M.bind at hsat
    cases hi : isShared o (s.setObj o (some { ob with hash := 0 })) with
    | ub => rw [hi] at hsat; exact hsat.elim
    | throw e t => rw [hi] at hsat; exact hsat.elim
    | ok b t => rw [hi] at hsat; obtain ⟨rfl, rfl⟩ := hsat; rfl
  refine fails_bind ?_
  rw [his]
  show NeverOk ((if true = true then _ else _ : M T Unit) _)
  rw [if_pos rfl]
  refine fails_bind (doDetach_spec hwf1 ho1 hsh1 fun s2 _ _ ho2 => ?_)
  refine fails_bind (sat_mono (reserve_zero_new hc ho2) (fun _ s3 h3 => ?_) fun _ _ h => h)
  obtain ⟨a3, b3, ho3, hb3, hcells⟩ := h3
  refine fails_bind ?_
  rw [getObj_eq ho3]
  refine fails_bind (m := putObj o _) (?_ : NeverOk _)
  rw [if_neg hsl]
  cases hr : ob.ref with
  | none => exact .inl rfl
  | some a =>
    dsimp only
    refine fails_of (fun b s4 he => ?_) fun e s4 he => ?_
    · have hs4 : s4 = s3.setObj o (some { ref := some a3, sublen := ob.sublen }) := by
        unfold getBlk at he
        split at he
        · cases he; rfl
        · cases he
      subst hs4
      split
      · rename_i hle
        refine .inl ?_
        have hw : (window b.cells ob.offset ob.sublen).length = ob.sublen := window_length hle
        have hemp : (window b.cells ob.offset ob.sublen).isEmpty = false := by
          rw [← Bool.not_eq_true, List.isEmpty_iff]
          intro e
          rw [e] at hw
          exact hsl hw.symm
        have ho4 := St.obj_setObj_self (some { ref := some a3, sublen := ob.sublen }) (St.obj_lt ho3)
        unfold writeRange
        rw [bind_ok (getObj_eq ho4), hemp]
        dsimp only
        rw [if_neg (by simp)]
        rw [bind_ok (show getBlk a3 (s3.setObj o _) = .ok b3 _ by unfold getBlk; rw [St.blk_setObj, hb3]), hcells,
          if_neg (by rw [hw]; simp; omega)]
        rfl
      · exact .inl rfl
    · unfold getBlk at he
      split at he <;> cases he

/-- `resize(npos)` of a String: the size computation wraps.  If the String shares its storage, its characters are copied into
a buffer without any cells: undefined (unless there is no memory even for that). -/
theorem c09_npos_shared (hv : cfg.Valid) (hp : cfg.Physical) {s : St T} {env : Env T} (h : Reach cfg s env) (hstr : IsStr cfg)
    {o : Nat} {v : List T} (ho : env o = .val v) (hne : v ≠ []) (hs : isShared o s = .ok true s) (x : T) :
    NeverOk (run cfg (.resize o npos) s) ∧ NeverOk (run cfg (.resizeFill o npos x) s) := by
  obtain ⟨hwf, hcap, hA⟩ := h.inv hv hp
  have hview := h.view_eq hv hp ho
  have hnp := view_len_npos hwf hcap hview
  have hg := growTo_npos_shared hv hp h hstr ho hne hs
  constructor
  · refine fails_first ?_
    unfold resize
    rw [bind_ok (length_spec hview), if_neg (by omega)]
    exact fails_first hg
  · refine fails_first ?_
    unfold resizeFill
    rw [bind_ok (length_spec hview), if_neg (by omega)]
    exact fails_first hg

theorem growTo_npos_own (hv : cfg.Valid) (hp : cfg.Physical) {s : St T} {env : Env T} (h : Reach cfg s env) (hstr : IsStr cfg)
    (hslack : cfg.slack = 1) {o : Nat} {v : List T} (ho : env o = .val v) (hs : isShared o s = .ok false s) :
    (growTo cfg o npos s).Sat (fun _ s' => ∃ ob a b, s'.obj o = some ob ∧ ob.ref = some a ∧ s'.blk a = some b ∧
      ob.sublen = v.length ∧ b.cells.length < npos) (fun e _ => e = .badAlloc) := by
  obtain ⟨hwf, hcap, hA⟩ := h.inv hv hp
  obtain ⟨ob, hob, hvo, hl⟩ := obj_of_view (h.view_eq hv hp ho)
  have hsh := isShared_run hs
  have hbd : ∀ a b, ob.ref = some a → s.blk a = some b → ob.offset + cfg.need ob.sublen ≤ b.cells.length := by
    intro a b hr hb
    obtain ⟨b', hb', hle⟩ := hwf.bounds o ob a hob hr
    rw [hb] at hb'; cases hb'; exact hle
  obtain ⟨hwf1, hfr1, ho1⟩ := wf_updObj (ob' := { ob with hash := 0 }) hwf hob rfl hbd (fun h => absurd rfl h)
  have hsh1 : shared (s.setObj o (some { ob with hash := 0 })) o = false := by
    have hcase : ob.ref = none ∨ ∃ a, ob.ref = some a := by cases ob.ref <;> simp
    rcases hcase with hr | ⟨a, hr⟩
    · exact shared_none ho1 hr
    · obtain ⟨b, hb, _⟩ := hwf.bounds o ob a hob hr
      rw [shared_eq ho1 hr (by exact hb), ← shared_eq hob hr hb, hsh]
  have hcaps : ∀ s', (∃ u, growTo cfg o npos s = .ok u s') → Caps s' := by
    intro s' ⟨u, hu⟩
    have := Pres.growTo (L := capsLaw hp) (cfg := cfg) o npos s
    rw [hu] at this
    exact this hcap
  have hmain : (growTo cfg o npos s).Sat (fun _ s' => ∃ ob a b, s'.obj o = some ob ∧ ob.ref = some a ∧ s'.blk a = some b ∧
      ob.sublen = v.length) (fun e _ => e = .badAlloc) := by
    unfold growTo
    rw [if_neg (fun h => h ⟨hstr, rfl⟩)]
    apply sat_getObj hob
    apply sat_putObj
    apply isShared_sat hwf1 ho1
    rw [hsh1]
    show ((if false = true then _ else _ : M T Unit) _).Sat _ _
    rw [if_neg (by simp)]
    refine reserve_own (s0 := s) (v := v) (ob := { ob with hash := 0 })
      ⟨hwf1, hfr1, ho1, hvo, hsh1, rfl⟩ ?_ ?_ fun _ _ _ _ _ _ => rfl
    · intro _
      by_cases h0 : v.length = 0
      · exact Or.inl (by omega)
      · refine Or.inr (fun a0 b0 hr hb => ?_)
        have := hbd a0 b0 hr hb
        unfold Cfg.need at this
        rw [if_neg (by omega), hslack] at this
        show ob.offset + ob.sublen < _
        omega
    · intro s' ob' a b' how h1 _ _ _
      exact ⟨ob', a, b', how.obj, how.ref, how.blk, h1⟩
  cases hr : growTo cfg o npos s with
  | ub => rw [hr] at hmain; exact hmain
  | throw e s' => rw [hr] at hmain; exact hmain
  | ok u s' =>
    rw [hr] at hmain
    obtain ⟨ob', a, b, h1, h2, h3, h4⟩ := hmain
    have := hcaps s' ⟨u, hr⟩ a b h3
    refine ⟨ob', a, b, h1, h2, h3, h4, ?_⟩
    unfold maxCells at this
    unfold npos
    omega

/-- `resize(npos)` of a String that does not share its storage returns with a length that is larger than its buffer, unless
there is no memory at all; `resize(npos, x)` writes past the buffer. -/
theorem c09_npos_own (hv : cfg.Valid) (hp : cfg.Physical) {s : St T} {env : Env T} (h : Reach cfg s env) (hstr : IsStr cfg)
    (hslack : cfg.slack = 1) {o : Nat} {v : List T} (ho : env o = .val v) (hs : isShared o s = .ok false s) (x : T) :
    ((∃ s' c, run cfg (.resize o npos) s = .ok .unit s' ∧ length o s' = .ok npos s' ∧ capacity o s' = .ok c s' ∧ c < npos) ∨
      ∃ s', run cfg (.resize o npos) s = .throw .badAlloc s') ∧
    NeverOk (run cfg (.resizeFill o npos x) s) := by
  obtain ⟨hwf, hcap, hA⟩ := h.inv hv hp
  have hview := h.view_eq hv hp ho
  have hnp := view_len_npos hwf hcap hview
  have hne : v.length ≠ npos := by
    obtain ⟨ob, ho, h1, h2⟩ := obj_of_view hview
    have := caps_obj hwf hcap ho h1
    unfold maxCells at this
    unfold npos
    omega
  have hg := growTo_npos_own hv hp h hstr hslack ho hs
  constructor
  · have e : resize cfg o npos s = M.bind (growTo cfg o npos) (fun _ => do let ob ← getObj o; putObj o { ob with sublen := npos }) s := by
      unfold resize
      rw [bind_ok (length_spec hview), if_neg (by omega)]
      rfl
    unfold M.bind at e
    cases hr : growTo cfg o npos s with
    | ub => rw [hr] at hg; exact hg.elim
    | throw e' s' =>
      rw [hr] at hg e
      cases hg
      exact .inr ⟨s', bind_throw e⟩
    | ok u s' =>
      rw [hr] at hg e
      obtain ⟨ob', a, b, h1, h2, h3, h4, h5⟩ := hg
      dsimp only at e
      rw [bind_ok (getObj_eq h1)] at e
      have h6 := St.obj_setObj_self (some { ob' with sublen := npos }) (St.obj_lt h1)
      refine .inl ⟨_, b.cells.length, bind_ok e, ?_, capacity_run h6 h2 (by rw [St.blk_setObj]; exact h3), h5⟩
      unfold length
      rw [bind_ok (getObj_eq h6)]
      rfl
  · refine fails_first ?_
    unfold resizeFill
    rw [bind_ok (length_spec hview), if_neg (by omega)]
    refine fails_bind (sat_mono hg (fun _ s' ⟨ob', a, b, h1, h2, h3, h4, h5⟩ => ?_) fun _ _ h => h)
    refine fails_bind ?_
    rw [getObj_eq h1]
    refine fails_first (.inl ?_)
    rw [h4]
    unfold writeRange
    rw [bind_ok (getObj_eq h1)]
    have : (List.replicate (npos - v.length) x).isEmpty = false := by
      rw [← Bool.not_eq_true, List.isEmpty_iff]
      intro e
      have := congrArg List.length e
      rw [List.length_replicate, List.length_nil] at this
      omega
    rw [this, if_neg (by simp), h2]
    dsimp only
    rw [bind_ok (show getBlk a s' = .ok b _ by unfold getBlk; rw [h3]), if_neg (by rw [List.length_replicate]; omega)]
    rfl

def stHi : St Nat := (exec strCfg {} [.cstrCtor [104, 105], .copyCtor 0]).getD {}

theorem reachHi1 : Reach strCfg ((exec strCfg {} [.cstrCtor [104, 105]]).getD {}) (Env.empty.upd 0 (.val [104, 105])) :=
  Reach.next strCfg_valid strCfg_physical .init (op := .cstrCtor [104, 105]) (x := .obj 0) rfl rfl (fun h => h)
    (Or.inl ⟨0, rfl, rfl, rfl⟩)

theorem reachHi : Reach strCfg stHi ((Env.empty.upd 0 (.val [104, 105])).upd 1 (.val [104, 105])) :=
  Reach.next strCfg_valid strCfg_physical reachHi1 (op := .copyCtor 0) (x := .obj 1) (by intro h; cases h) rfl (fun h => h)
    ⟨1, rfl, rfl, rfl⟩

/-- `String s("hi"), t(s); t.resize(String::npos)`. -/
example : NeverOk (run strCfg (.resize 1 npos) stHi) :=
  (c09_npos_shared strCfg_valid strCfg_physical reachHi rfl (o := 1) (v := [104, 105]) rfl (by decide) rfl 0).1

/-- `String s("hi"); s.resize(String::npos)`. -/
example : NeverOk (run strCfg (.resizeFill 0 npos 120) ((exec strCfg {} [.cstrCtor [104, 105]]).getD {})) :=
  (c09_npos_own strCfg_valid strCfg_physical reachHi1 rfl rfl (o := 0) (v := [104, 105]) rfl rfl 120).2

end Bdlib.Rca
