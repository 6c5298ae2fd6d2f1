import Verif.Nest.Fill
import Verif.Props.C02

/-!
# Histories of calls on strings and arrays of strings
-/

namespace Bdlib.Nest
open Bdlib Bdlib.Spec Bdlib.Rca
open P (strs arrs undef)

variable {c : Conf} {us : Env UInt8} {env : Env UInt8} {σ : St Elem} {w : World} {es : Env UInt8} {ea : Env Elem}
  {α β γ δ : Type}

theorem val_valid (c : Conf) : c.val.Valid := .inl rfl
theorem val_phys (hc : c.Good) : c.val.Physical := hc.arr

/-- The memory matches an array memory over values which in-contract calls can produce. -/
def Inv (c : Conf) (w : World) (es : Env UInt8) (ea : Env Elem) : Prop := ∃ σ, Rel c es σ w ∧ Reach c.val σ ea

theorem Rel.shared (h : Rel c es σ w) : shared σ = shared w.arrs := by
  obtain ⟨env, h⟩ := h
  funext o
  unfold Rca.shared
  rw [h.like.obj]
  cases w.arrs.obj o with
  | none => rfl
  | some ob =>
    cases hr : ob.ref with
    | none => simp only [hr]
    | some a =>
      simp only [hr]
      rw [h.like.blk]
      cases w.arrs.blk a <;> rfl

theorem fit_of (hc : c.Good) (hA : Reach c.val σ ea) {o : Nat} (ho : ea.Has o) : Fit σ o := by
  obtain ⟨hwf, _, hab⟩ := hA.inv (val_valid c) (val_phys hc)
  obtain ⟨v, hv⟩ := ho
  have hs : σ.view o = some v := by have := hab o; rw [hv] at this; exact this
  intro ob hob
  rw [view_eq hob] at hs
  refine ⟨fun hr => ?_, fun a B hr hB hnil => ?_⟩
  · unfold St.viewOf at hs
    rw [hr] at hs
    simp only at hs
    split at hs
    · rename_i hz; exact hz.1
    · cases hs
  · obtain ⟨b, hb, hle⟩ := hwf.le hob hr
    rw [hB] at hb
    cases hb
    rw [hnil] at hle
    simp at hle
    omega

theorem match_out {m : P α} {m' : M Elem β} {f : α → P γ} {g : β → Out Elem} {Q : α → β → Env UInt8 → World → St Elem → Prop}
    {Q' : γ → Out Elem → Env UInt8 → World → St Elem → Prop} (h : Match c us (m w) (m' σ) Q)
    (hq : ∀ a b us' w' σ', Rel c us' σ' w' → Q a b us' w' σ' → ∃ x, f a w' = .ok x w' ∧ Q' x (g b) us' w' σ') :
    Match c us ((m >>= f) w) (mapOut m' g σ) Q' := by
  unfold mapOut
  refine match_bind h ?_
  intro a b us' w' σ' _ hR hQ
  obtain ⟨x, hx, hx'⟩ := hq a b us' w' σ' hR hQ
  exact ⟨x, w', us', hx, hR, hx'⟩

/-- A call whose code matches has the specified effect. -/
theorem step_of_match (hc : c.Good) {op : Op Elem} {m : P α} {Q : α → Out Elem → Env UInt8 → World → St Elem → Prop}
    (hA : Reach c.val σ ea) (hpre : Spec.Pre c.val (shared σ) ea op) (hm : Match c es (m w) (Rca.run c.val op σ) Q) :
    (∃ x b σ' w' es' ea', m w = .ok x w' ∧ Rel c es' σ' w' ∧ Q x b es' w' σ' ∧
      Spec.Post c.val (shared σ) ea op (.ret b) ea' ∧ Reach c.val σ' ea') ∨
    ∃ e σ' w' ea', m w = .throw e w' ∧ Rel c es σ' w' ∧
      Spec.Post c.val (shared σ) ea op (.exc e) ea' ∧ Reach c.val σ' ea' := by
  obtain ⟨out, σ', ea', hr, hp, hR⟩ := hA.call (val_valid c) (val_phys hc) hpre
  cases hrun : Rca.run c.val op σ with
  | ub => rw [hrun] at hr; cases hr
  | ok b σ1 =>
    rw [hrun] at hr hm
    cases hr
    obtain ⟨x, w', es', h1, h2, h3⟩ := hm
    exact .inl ⟨x, b, σ', w', es', ea', h1, h2, h3, hp, hR⟩
  | throw e σ1 =>
    rw [hrun] at hr hm
    cases hr
    obtain ⟨w', h1, h2⟩ := hm
    exact .inr ⟨e, σ', w', ea', h1, h2, hp, hR⟩

/-! ## Array calls without elements -/

theorem match_plain (hc : c.Good) (h : Rel c us σ w) (hA : Reach c.val σ ea) {op : Op Elem} (hpl : Plain op)
    (hpre : Spec.Pre c.val (shared σ) ea op) :
    Match c us (runArr c op w) (Rca.run c.val op σ) fun x b us' _ _ => x = b ∧ us' = us := by
  have unit : ∀ {m : P Unit} {m' : M Elem Unit}, Match c us (m w) (m' σ) (fun _ _ us' _ _ => us' = us) →
      Match c us ((do m; return .unit : P (Out Elem)) w) (mapOut m' (fun _ => .unit) σ) fun x b us' _ _ => x = b ∧ us' = us :=
    fun hm => match_out hm fun a b us' w' σ' _ hq => ⟨_, rfl, rfl, hq⟩
  have obj : ∀ {m : P Nat} {m' : M Elem Nat}, Match c us (m w) (m' σ) (fun x y us' _ _ => x = y ∧ us' = us) →
      Match c us ((do let o ← m; return .obj o : P (Out Elem)) w) (mapOut m' .obj σ) fun x b us' _ _ => x = b ∧ us' = us :=
    fun hm => match_out hm fun a b us' w' σ' _ hq => ⟨_, rfl, by rw [hq.1], hq.2⟩
  have par : ∀ {m : M Nat Unit} {m' : M Elem Unit}, Par m m' → Match c us (arrs m w) (m' σ) (fun _ _ us' _ _ => us' = us) :=
    fun hp => match_mono (match_arrs hp h) fun _ _ _ _ _ hq => hq.2.1
  have paro : ∀ {m : M Nat Nat} {m' : M Elem Nat}, Par m m' →
      Match c us (arrs m w) (m' σ) (fun x y us' _ _ => x = y ∧ us' = us) :=
    fun hp => match_mono (match_arrs hp h) fun _ _ _ _ _ hq => ⟨hq.1, hq.2.1⟩
  have fit : ∀ {o}, ea.Has o → Fit σ o := fun ho => fit_of hc hA ho
  cases op <;> simp only [Plain] at hpl <;> simp only [Spec.Pre] at hpre <;> simp only [runArr, Rca.run]
  case ctor => exact obj (paro (.newObj _))
  case copyCtor r => exact obj (paro (.copyCtor r))
  case moveCtor r => exact obj (paro (.moveCtor rfl r))
  case sizeCtor n => exact obj (match_sizeCtor hc h)
  case substring r a b => exact obj (paro (.substring r a b))
  case destroy o => exact unit (match_destroy hc h)
  case copyAssign o r => exact unit (match_copyAssign hc h)
  case moveAssign o r => exact unit (match_moveAssign hc h)
  case swap o r => exact unit (par (.swap o r))
  case clear o => exact unit (par (.clear o))
  case length o => exact match_out (paro (.length o)) fun a b us' w' σ' _ hq => ⟨_, rfl, by rw [hq.1], hq.2⟩
  case begin o => exact unit (match_getOwnCopy hc h (fit hpre))
  case reserve o n => exact unit (match_reserve hc h (fit hpre.1))
  case resize o n => exact unit (match_resize hc h (fit hpre.1))
  case slice o a b => exact unit (par (.slice o a b))
  case appendRca o r n => exact unit (match_appendArr hc h (fit hpre.1))
  case appendMove o r n => exact unit (match_appendArrMove hc h (fit hpre.1))
  case insertRca o p r => exact unit (match_insertArr hc h (fit hpre.1))
  case insertRcaN o p r n => exact unit (match_insertArrN hc h (fit hpre.1))
  case insertMove o p r => exact unit (match_insertArrMove hc h (fit hpre.1))
  case insertMoveN o p r n => exact unit (match_insertArrMoveN hc h (fit hpre.1))
  case replaceRca o p r n => exact unit (match_replaceArr hc h (fit hpre.1))
  case replaceMove o p r n => exact unit (match_replaceArrMove hc h (fit hpre.1))
  case popBack o => exact unit (par (.popBack o))
  case arrDropFront o n => exact unit (par (.arrDropFront o n))
  case arrDropBack o n => exact unit (par (.arrDropBack o n))

/-! ## String calls -/

theorem RelE.cut (h : RelE c env us σ w) : us = cut (fun x => ∃ a, x ∈ cellsAt w.arrs a) env := by
  funext x
  by_cases hx : ∃ a, x ∈ cellsAt w.arrs a
  · obtain ⟨a, ha⟩ := hx
    rw [cut_in ⟨a, ha⟩]; exact (h.cell a x ha).2
  · rw [cut_out hx]; exact h.rest x fun a ha => hx ⟨a, ha⟩

theorem rel_str (hc : c.Good) (h : Rel c us σ w) {op : Op UInt8} (hpre : Spec.Pre c.str (shared w.strs) us op) :
    ∃ out s' us', Rca.result (Rca.run c.str op w.strs) = some (out, s') ∧
      Spec.Post c.str (shared w.strs) us op out us' ∧ Rel c us' σ { w with strs := s' } := by
  obtain ⟨env, h⟩ := h
  rw [h.cut] at hpre
  obtain ⟨out, s', env', h1, h2, h3⟩ := h.reach.call hc.valid hc.phys (pre_cut hpre)
  have hl : ∀ x, (∃ a, x ∈ cellsAt w.arrs a) → env x ≠ .dead := fun x ⟨a, ha⟩ => (h.cell a x ha).1
  refine ⟨out, s', Spec.cut (fun x => ∃ a, x ∈ cellsAt w.arrs a) env', h1, ?_, env', ?_⟩
  · have := post_cut hl hpre h2
    rw [← h.cut] at this
    exact this
  · refine h.user h3 (fun a x hx => hidden_same hl hpre h2 ⟨a, hx⟩) (fun a x hx => cut_in ⟨a, hx⟩) fun x hx => cut_out ?_
    rintro ⟨a, ha⟩
    exact hx a ha

/-- Only its destructor ends the life of an object. -/
theorem post_live {T : Type} {cfg : Cfg T} {sh : Nat → Bool} {env env' : Env T} {op : Op T} {out : Outcome T} {t : Nat}
    (hpre : Spec.Pre cfg sh env op) (hop : op ≠ .destroy t) (h : Spec.Post cfg sh env op out env') (ht : env t ≠ .dead) : env' t ≠ .dead := by
  have hv : ∀ {v : List T}, Slot.val v ≠ .dead := fun hh => by cases hh
  have hmv : movedSlot cfg ≠ .dead := by unfold movedSlot; split <;> intro hh <;> cases hh
  have upd : ∀ {e : Env T} {o : Nat} {y : Slot T}, y ≠ .dead → e t ≠ .dead → (e.upd o y) t ≠ .dead := by
    intro e o y hy he
    by_cases hto : t = o
    · subst hto; rw [Env.upd_self]; exact hy
    · rw [Env.upd_ne hto]; exact he
  have makes : ∀ {e : Env T} {y : Slot T}, e t ≠ .dead → Makes e y out env' → env' t ≠ .dead := by
    rintro e y he ⟨o, hd, _, rfl⟩
    rw [Env.upd_ne fun (hto : t = o) => he (hto ▸ hd)]; exact he
  have mof : ∀ {v : List T}, MakesOrFails env v out env' → env' t ≠ .dead := by
    rintro v (h | ⟨_, rfl⟩)
    · exact makes ht h
    · exact ht
  have sets : ∀ {o : Nat} {v : List T}, Sets env o v out env' → env' t ≠ .dead := by
    rintro o v ⟨_, rfl⟩; exact upd hv ht
  have nomem : ∀ {o : Nat}, NoMem sh env o out env' → env' t ≠ .dead := by
    rintro o ⟨_, rfl⟩
    split
    · exact upd hv ht
    · exact ht
  have sof : ∀ {o : Nat} {v : List T}, SetsOrFails sh env o v out env' → env' t ≠ .dead := by
    rintro o v (h | h)
    · exact sets h
    · exact nomem h
  have aof : ∀ {o : Nat} {v : List T}, AssignsOrFails env o v out env' → env' t ≠ .dead := by
    rintro o v (h | ⟨_, rfl⟩)
    · exact sets h
    · exact upd hv ht
  have obs : ∀ {x : Out T}, Observes env x out env' → env' t ≠ .dead := by
    rintro x ⟨_, rfl⟩; exact ht
  have rej : Rejects env out env' → env' t ≠ .dead := by
    rintro ⟨_, rfl⟩; exact ht
  have smv : ∀ {o r : Nat} {p : Prop} {v : List T}, SetsMoving cfg sh env o r p v out env' → env' t ≠ .dead := by
    rintro o r p v (⟨_, _, rfl⟩ | ⟨_, h⟩)
    · exact upd hv (upd hmv ht)
    · exact sof h
  have chk : ∀ {o pos : Nat} {p : Prop}, (p → env' t ≠ .dead) → Checked env o pos p out env' → env' t ≠ .dead := by
    intro o pos p hp h
    unfold Checked at h
    split at h
    · exact hp h
    · exact rej h
  have tk : ∀ {o : Nat} {x : Option T} {v : List T}, TakesOut env o x v out env' → env' t ≠ .dead := by
    rintro o x v ⟨_, rfl⟩; exact upd hv ht
  cases op <;> simp only [Spec.Post] at h <;>
    first
    | exact mof h
    | exact sets h
    | exact sof h
    | exact aof h
    | exact obs h
    | exact smv h
    | exact tk h
    | exact chk sof h
    | exact chk smv h
    | exact makes ht h
    | skip
  case moveCtor r => exact makes (upd hmv ht) h
  case destroy o =>
    obtain ⟨_, rfl⟩ := h
    rw [Env.upd_ne fun (hto : t = o) => hop (by rw [hto])]; exact ht
  case copyAssign o r =>
    obtain ⟨_, rfl⟩ := h
    exact upd hpre.2 ht
  case moveAssign o r =>
    obtain ⟨_, rfl⟩ := h
    split
    · exact ht
    · exact upd hpre.2 (upd hmv ht)
  case swap o r =>
    obtain ⟨_, rfl⟩ := h
    exact upd hpre.1 (upd hpre.2 ht)
  case assignCstr o xs =>
    rcases h with h | ⟨_, rfl⟩
    · exact sets h
    · exact ht
  case «at» o i =>
    split at h
    · exact obs h
    · exact rej h
  case cStr o =>
    rcases h with ⟨_, _, h⟩ | h
    · exact obs h
    · exact nomem h
  case begin o =>
    rcases h with h | h
    · exact obs h
    · exact nomem h
  case reserve o n =>
    rcases h with h | ⟨_, rfl⟩
    · exact obs h
    · exact ht
  case resize o n =>
    rcases h with ⟨_, _, h⟩ | ⟨_, h⟩
    · exact sets h
    · exact nomem h
  case resizeFill o n x =>
    rcases h with h | ⟨_, h⟩
    · exact sets h
    · exact nomem h
  case insertRcaN o p r n =>
    split at h
    · exact obs h
    · exact chk sof h
  case replaceRca o p r n =>
    split at h
    · exact obs h
    · exact chk sof h
  case insertMoveN o p r n =>
    split at h
    · exact obs h
    · exact chk smv h
  case replaceMove o p r n =>
    split at h
    · exact obs h
    · exact chk smv h

theorem writeRange_do {T : Type} {o i a : Nat} {s : St T} {ob : Obj} {b : Block T} {x : T} (ho : s.obj o = some ob)
    (hr : ob.ref = some a) (hb : s.blk a = some b) (hle : ob.offset + i + 1 ≤ b.cells.length) :
    writeRange o i [x] s = .ok () (s.setBlk a (some { b with cells := overwrite b.cells (ob.offset + i) [x] })) := by
  unfold writeRange
  rw [bind_ok (getObj_eq ho)]
  simp only [List.isEmpty_cons, Bool.false_eq_true, if_false, hr]
  rw [bind_ok (getBlk_eq hb), if_pos (by simpa using hle)]
  rfl

/-- A string call on an element, once the array owns its storage. -/
theorem rel_modify (hc : c.Good) (h : Rel c us σ w) {o i : Nat} {x : Elem} (hx : readRange o i 1 σ = .ok [x] σ)
    {op : Nat → Op UInt8} (hpre : ∀ t sh, us t = .dead → Spec.Pre c.str sh (us.upd t x) (op t) ∧ op t ≠ .destroy t) :
    ∃ t sh out s' e σ', Rca.result (Rca.run c.str (op t) w.strs) = some (out, s') ∧ cell o i w = .ok t w ∧ us t = .dead ∧
      Spec.Post c.str sh (us.upd t x) (op t) out e ∧ writeRange o i [e t] σ = .ok () σ' ∧
      Rel c (e.upd t .dead) σ' { w with strs := s' } := by
  obtain ⟨env, h⟩ := h
  obtain ⟨_, t, a, b, ob, ho, hr, hb, hlt, hget, hwin, hcell, hxs, hm⟩ := cell_ok h hx
  have hxt : x = env t := by simpa using hxs
  subst hxt
  have hta : t ∈ cellsAt w.arrs a := by rw [cellsAt_some hb]; exact hm
  have hut : us t = .dead := (h.cell a t hta).2
  have hlive := h.live hb hm
  let C : Nat → Prop := fun x => x ≠ t ∧ ∃ a, x ∈ cellsAt w.arrs a
  have hcut : us.upd t (env t) = cut C env := by
    funext y
    by_cases hy : y = t
    · subst hy; rw [Env.upd_self, cut_out fun hC => hC.1 rfl]
    · rw [Env.upd_ne hy]
      by_cases hC : ∃ a, y ∈ cellsAt w.arrs a
      · obtain ⟨a', ha'⟩ := hC
        rw [cut_in ⟨hy, a', ha'⟩]; exact (h.cell a' y ha').2
      · rw [cut_out fun hC' => hC hC'.2]; exact h.rest y fun a' ha' => hC ⟨a', ha'⟩
  obtain ⟨hp, hnd⟩ := hpre t (shared w.strs) hut
  rw [hcut] at hp
  obtain ⟨out, s', env', h1, h2, h3⟩ := h.reach.call hc.valid hc.phys (pre_cut hp)
  have hl : ∀ x, C x → env x ≠ .dead := fun x ⟨_, a, ha⟩ => (h.cell a x ha).1
  have hCt : ¬ C t := fun hC => hC.1 rfl
  have hsame : ∀ y, C y → env' y = env y := fun y hy => hidden_same hl hp h2 hy
  have hlive' : env' t ≠ .dead := post_live (pre_cut hp) hnd h2 hlive
  have hle : ob.offset + i + 1 ≤ b.cells.length := hlt
  have hB : σ.blk a = some (mapBlk env b) := by rw [h.like.blk, hb]; rfl
  have hoσ : σ.obj o = some ob := by rw [h.like.obj]; exact ho
  have hmap : b.cells.map env' = overwrite (b.cells.map env) (ob.offset + i) [env' t] := by
    refine overwrite_map (h.nodup_blk hb) (n := 1) hle ?_ fun y hy hyw => ?_
    · rw [hwin]; rfl
    · rw [hwin, List.mem_singleton] at hyw
      exact hsame y ⟨hyw, a, by rw [cellsAt_some hb]; exact hy⟩
  have hwr : writeRange o i [env' t] σ = .ok () (σ.setBlk a (some (mapBlk env' b))) := by
    have e : mapBlk env' b = { mapBlk env b with cells := overwrite (mapBlk env b).cells (ob.offset + i) [env' t] } := by
      unfold mapBlk
      simp only
      rw [hmap]
    rw [e]
    exact writeRange_do hoσ hr hB (by simpa [mapBlk] using hle)
  refine ⟨t, shared w.strs, out, s', cut C env', _, h1, hcell, hut, ?_, by rw [cut_out hCt]; exact hwr, env', ?_⟩
  · rw [hcut]; exact post_cut hl hp h2
  · refine RelE.block h h3 hb (fun y hy => ?_) (fun a' y hne hy => ?_) (fun a' y hy => ?_) fun y hy => ?_
    · by_cases e : y = t
      · subst e; exact hlive'
      · rw [hsame y ⟨e, a, by rw [cellsAt_some hb]; exact hy⟩]; exact h.live hb hy
    · exact hsame y ⟨fun e => hne (h.disj a' a y hy (e ▸ hta)), a', hy⟩
    · by_cases e : y = t
      · subst e; rw [Env.upd_self]
      · rw [Env.upd_ne e, cut_in ⟨e, a', hy⟩]
    · have e : y ≠ t := fun e => hy a (e ▸ hta)
      rw [Env.upd_ne e, cut_out]
      rintro ⟨_, a', ha'⟩
      exact hy a' ha'

/-! ## Every call -/

theorem Out.elem_inj {T : Type} {x y : Option T} (h : Out.elem x = Out.elem y) : x = y := by cases h; rfl

section Steps
variable (hc : c.Good)
include hc

/-- A call that takes elements and leaves the strings of the program alone. -/
theorem step_copies (hA : Reach c.val σ ea) (h : Rel c es σ w) {op : Op Elem} (hpre : Spec.Pre c.val (shared w.arrs) ea op)
    {m : P Ans} {Q : Ans → Out Elem → Env UInt8 → World → St Elem → Prop} (hm : Match c es (m w) (Rca.run c.val op σ) Q)
    (hq : ∀ x b us' w' σ', Q x b us' w' σ' → x = .a b ∧ us' = es) :
    ∃ out w' es' ea', result (m w) = some (out, w') ∧ Copies c (shared w.arrs) es ea op out es' ea' ∧ Inv c w' es' ea' := by
  rw [← h.shared] at hpre ⊢
  rcases step_of_match hc hA hpre hm with ⟨x, b, σ', w', es', ea', h1, h2, h3, h4, h5⟩ | ⟨e, σ', w', ea', h1, h2, h4, h5⟩
  · obtain ⟨rfl, rfl⟩ := hq _ _ _ _ _ h3
    exact ⟨.ret (.a b), w', es', ea', by rw [h1]; rfl, ⟨.ret b, h4, rfl, rfl⟩, σ', h2, h5⟩
  · exact ⟨.exc e, w', es, ea', by rw [h1]; rfl, ⟨.exc e, h4, rfl, rfl⟩, σ', h2, h5⟩

/-- A call that moves from a string of the program. -/
theorem step_moves (hA : Reach c.val σ ea) (h : Rel c es σ w) {op : Op Elem} {t : Nat} (hpre : Spec.Pre c.val (shared w.arrs) ea op)
    {m : P Ans} {Q : Ans → Out Elem → Env UInt8 → World → St Elem → Prop} (hm : Match c es (m w) (Rca.run c.val op σ) Q)
    (hq : ∀ x b us' w' σ', Q x b us' w' σ' → x = .a b ∧ us' = es.upd t (movedSlot c.str)) :
    ∃ out w' es' ea', result (m w) = some (out, w') ∧ Moves c (shared w.arrs) es ea t op out es' ea' ∧ Inv c w' es' ea' := by
  rw [← h.shared] at hpre ⊢
  rcases step_of_match hc hA hpre hm with ⟨x, b, σ', w', es', ea', h1, h2, h3, h4, h5⟩ | ⟨e, σ', w', ea', h1, h2, h4, h5⟩
  · obtain ⟨rfl, rfl⟩ := hq _ _ _ _ _ h3
    exact ⟨.ret (.a b), w', _, ea', by rw [h1]; rfl, ⟨.ret b, h4, rfl, rfl⟩, σ', h2, h5⟩
  · exact ⟨.exc e, w', es, ea', by rw [h1]; rfl, ⟨.exc e, h4, rfl, rfl⟩, σ', h2, h5⟩

/-- A call that returns an element. -/
theorem step_hands (hA : Reach c.val σ ea) (h : Rel c es σ w) {op : Op Elem} (hpre : Spec.Pre c.val (shared w.arrs) ea op)
    {m : P Ans} {Q : Ans → Out Elem → Env UInt8 → World → St Elem → Prop} (hm : Match c es (m w) (Rca.run c.val op σ) Q)
    (hq : ∀ x b us' w' σ', Q x b us' w' σ' → ∃ t y, x = .s (.obj t) ∧ b = .elem (some y) ∧ es t = .dead ∧ us' = es.upd t y) :
    ∃ out w' es' ea', result (m w) = some (out, w') ∧ Hands c (shared w.arrs) es ea op out es' ea' ∧ Inv c w' es' ea' := by
  rw [← h.shared] at hpre ⊢
  rcases step_of_match hc hA hpre hm with ⟨x, b, σ', w', es', ea', h1, h2, h3, h4, h5⟩ | ⟨e, σ', w', ea', h1, h2, h4, h5⟩
  · obtain ⟨t, y, rfl, rfl, hd, rfl⟩ := hq _ _ _ _ _ h3
    exact ⟨.ret (.s (.obj t)), w', _, ea', by rw [h1]; rfl, .inl ⟨t, y, hd, h4, rfl, rfl⟩, σ', h2, h5⟩
  · exact ⟨.exc e, w', es, ea', by rw [h1]; rfl, .inr ⟨e, h4, rfl, rfl⟩, σ', h2, h5⟩

/-- A call that constructs over elements. -/
theorem step_fills (hA : Reach c.val σ ea) (h : Rel c es σ w) {op : Op Elem} (hpre : Spec.Pre c.val (shared w.arrs) ea op)
    {m : P Ans} {k : Nat} (hm : Match c es (m w) (Rca.run c.val op σ) fun x b us' _ _ => x = .a b ∧ ∃ L, Grown es us' L ∧ L.length = k) :
    ∃ out w' us' es' ea' L, result (m w) = some (out, w') ∧ Copies c (shared w.arrs) es ea op out es' ea' ∧
      Grown es' us' L ∧ L.length = (match out with | .ret _ => k | .exc _ => 0) ∧ Inv c w' us' ea' := by
  rw [← h.shared] at hpre ⊢
  rcases step_of_match hc hA hpre hm with ⟨x, b, σ', w', us', ea', h1, h2, ⟨rfl, L, hL, hl⟩, h4, h5⟩ | ⟨e, σ', w', ea', h1, h2, h4, h5⟩
  · exact ⟨.ret (.a b), w', us', es, ea', L, by rw [h1]; rfl, ⟨.ret b, h4, rfl, rfl⟩, hL, hl, σ', h2, h5⟩
  · exact ⟨.exc e, w', es, es, ea', [], by rw [h1]; rfl, ⟨.exc e, h4, rfl, rfl⟩, .refl es, rfl, σ', h2, h5⟩

/-- Gaining own storage does not change the length. -/
theorem keeps_length (hA : Reach c.val σ ea) {o n : Nat} (ho : ea.Has o) (hn : (ea.get o).length ≤ n) {σ' : St Elem}
    (h : Rca.aboutToModify c.val o n σ = .ok () σ') : ∃ ob, σ'.obj o = some ob ∧ ob.sublen = (ea.get o).length := by
  obtain ⟨hwf, _, hab⟩ := hA.inv (val_valid c) (val_phys hc)
  obtain ⟨v, hv⟩ := ho
  have hs : σ.view o = some v := by have := hab o; rw [hv] at this; exact this
  have hget : ea.get o = v := by unfold Env.get; rw [hv]
  rw [hget] at hn ⊢
  have := aboutToModify_spec hwf hs hn (Q := fun _ s' => ∃ ob, s'.obj o = some ob ∧ ob.sublen = v.length) (E := fun _ _ => True)
    (fun s' ob' a b' hown hl _ _ => ⟨ob', hown.obj, hl⟩) (fun _ _ _ _ _ _ => trivial)
  rw [h] at this
  exact this

theorem step_resizeFill (h : Inv c w es ea) {a n t : Nat} (ha : ea.Has a) (ht : es.Live t) :
    ∃ out w' us' es' ea' L, result (run c (.resizeFill a n t) w) = some (out, w') ∧
      Post c (shared w.strs) (shared w.arrs) es ea (.resizeFill a n t) out es' ea' ∧
      Grown es' us' L ∧ L.length = wasted ea (.resizeFill a n t) out ∧ Inv c w' us' ea' := by
  obtain ⟨σ, hR, hA⟩ := h
  have hN : ∀ ob, σ.obj a = some ob → ob.sublen = (ea.get a).length := by
    intro ob hob
    obtain ⟨v, hv⟩ := ha
    obtain ⟨_, _, hab⟩ := hA.inv (val_valid c) (val_phys hc)
    have hs : σ.view a = some v := by have := hab a; rw [hv] at this; exact this
    rw [view_eq hob] at hs
    have hget : ea.get a = v := by unfold Env.get; rw [hv]
    rw [hget]
    exact (viewOf_length hs).symm
  have hm := match_resizeFill hc hR (fit_of hc hA ha) (len := n) ht hN fun σ' hle h => keeps_length hc hA ha hle h
  obtain ⟨out, w', us', es', ea', L, h1, h2, h3, h4, h5⟩ :=
    step_fills hc hA hR (op := .resizeFill a n (es t)) (m := run c (.resizeFill a n t))
      ⟨ha, fun hs => absurd hs (by simp [IsStr, Conf.val])⟩ (match_out hm fun x b us' w' σ' _ hq => ⟨_, rfl, rfl, hq⟩)
  refine ⟨out, w', us', es', ea', L, h1, h2, h3, ?_, h5⟩
  rw [h4]
  cases out <;> rfl

theorem step_fillCtor (h : Inv c w es ea) {n t : Nat} (ht : es.Live t) :
    ∃ out w' us' es' ea' L, result (run c (.fillCtor n t) w) = some (out, w') ∧
      Post c (shared w.strs) (shared w.arrs) es ea (.fillCtor n t) out es' ea' ∧
      Grown es' us' L ∧ L.length = wasted ea (.fillCtor n t) out ∧ Inv c w' us' ea' := by
  obtain ⟨σ, hR, hA⟩ := h
  have hm := match_fillCtor hc hR (n := n) ht fun o σ1 σ2 h1 h2 => by
    obtain ⟨out, σ', ea', hr, hp, hR'⟩ := hA.call (val_valid c) (val_phys hc) (op := .ctor) trivial
    have e : Rca.run c.val .ctor σ = .ok (.obj o) σ1 := by
      show ((newObj {} : M Elem Nat) >>= fun x => (pure (Out.obj x) : M Elem (Out Elem))) σ = _
      rw [bind_ok h1]; rfl
    rw [e] at hr; cases hr
    obtain ⟨o', _, ho', rfl⟩ := hp
    cases ho'
    have := keeps_length hc hR' (o := o) (n := n) ⟨[], Env.upd_self ..⟩ (by unfold Env.get; rw [Env.upd_self]; exact Nat.zero_le _) h2
    unfold Env.get at this
    rw [Env.upd_self] at this
    exact this
  obtain ⟨out, w', us', es', ea', L, h1, h2, h3, h4, h5⟩ :=
    step_fills hc hA hR (op := .fillCtor n (es t)) (m := run c (.fillCtor n t)) rfl
      (match_out hm fun x b us' w' σ' _ ⟨L, hL, hx, hl⟩ => ⟨_, rfl, by rw [hx], L, hL, hl⟩)
  refine ⟨out, w', us', es', ea', L, h1, h2, h3, ?_, h5⟩
  rw [h4]
  cases out <;> rfl

theorem inv_step_plain (h : Inv c w es ea) {call : Call} (hpre : Pre c (shared w.strs) (shared w.arrs) es ea call)
    (hn1 : ∀ n t, call ≠ .fillCtor n t) (hn2 : ∀ a n t, call ≠ .resizeFill a n t) :
    ∃ out w' es' ea', result (run c call w) = some (out, w') ∧
      Post c (shared w.strs) (shared w.arrs) es ea call out es' ea' ∧ Inv c w' es' ea' := by
  obtain ⟨σ, hR, hA⟩ := h
  have fit : ∀ {o}, ea.Has o → Fit σ o := fun ho => fit_of hc hA ho
  have unit : ∀ {m : P Unit} {m' : M Elem Unit} {us' : Env UInt8}, Match c es (m w) (m' σ) (fun _ _ u _ _ => u = us') →
      Match c es ((do m; return .a .unit : P Ans) w) (mapOut m' (fun _ => .unit) σ) fun x b u _ _ => x = .a b ∧ u = us' :=
    fun hm => match_out hm fun a b us' w' σ' _ hq => ⟨_, rfl, rfl, hq⟩
  have hand : ∀ {m : P Nat} {m' : M Elem (Option Elem)},
      Match c es (m w) (m' σ) (fun t v us' _ _ => es t = .dead ∧ ∃ y, v = some y ∧ us' = es.upd t y) →
      Match c es ((do let t ← m; return .s (.obj t) : P Ans) w) (mapOut m' .elem σ)
        fun x b us' _ _ => ∃ t y, x = .s (.obj t) ∧ b = .elem (some y) ∧ es t = .dead ∧ us' = es.upd t y :=
    fun hm => match_out hm fun a b us' w' σ' _ ⟨hd, y, hb, hu⟩ => ⟨_, rfl, a, y, rfl, by rw [hb], hd, hu⟩
  cases call with
  | str op =>
    obtain ⟨out, s', us', h1, h2, h3⟩ := rel_str hc hR hpre
    cases hr : Rca.run c.str op w.strs with
    | ub => rw [hr] at h1; cases h1
    | ok x s =>
      rw [hr] at h1; cases h1
      exact ⟨_, _, us', ea, by unfold run; dsimp only; rw [pbind_ok (strs_ok hr)]; rfl, ⟨_, h2, rfl, rfl⟩, σ, h3, hA⟩
    | throw e s =>
      rw [hr] at h1; cases h1
      have : strs (Rca.run c.str op) w = .throw e { w with strs := s' } := by simp only [P.strs, hr]
      exact ⟨_, _, us', ea, by unfold run; dsimp only; rw [pbind_throw this]; rfl, ⟨_, h2, rfl, rfl⟩, σ, h3, hA⟩
  | arr op =>
    have hp := hpre.2
    rw [← hR.shared] at hp
    refine step_copies hc hA hR hpre.2 (m := run c (.arr op)) (Q := fun x b u _ _ => x = .a b ∧ u = es) ?_ fun _ _ _ _ _ hq => hq
    have hm := match_plain hc hR hA hpre.1 hp
    have := match_bind (f := fun x => (pure (.a x) : P Ans)) (f' := fun x => (pure x : M Elem (Out Elem)))
      (Q' := fun x b u _ _ => x = .a b ∧ u = es) hm fun a b us' w' σ' _ hR' hq =>
        ⟨_, w', us', rfl, hR', by rw [hq.1], hq.2⟩
    have e : (Rca.run c.val op >>= fun x => (pure x : M Elem (Out Elem))) σ = Rca.run c.val op σ := by
      show M.bind _ _ σ = _
      unfold M.bind
      cases Rca.run c.val op σ <;> rfl
    rw [e] at this
    exact this
  | listCtor hs =>
    refine step_copies hc hA hR (op := .listCtor (hs.map es)) (m := run c (.listCtor hs)) rfl
      (match_out (Q' := fun x b u _ _ => x = .a b ∧ u = es) (match_listCtor hc hR hpre) fun a b us' w' σ' _ hq =>
        ⟨_, rfl, by rw [hq.1], hq.2⟩) fun _ _ _ _ _ hq => hq
  | assignList a hs =>
    exact step_copies hc hA hR (op := .assignList a (hs.map es)) (m := run c (.assignList a hs)) hpre.1
      (unit (match_assignList hc hR hpre.2)) fun _ _ _ _ _ hq => hq
  | fillCtor n h => exact absurd rfl (hn1 n h)
  | resizeFill a n h => exact absurd rfl (hn2 a n h)
  | write a i h =>
    exact step_copies hc hA hR (op := .write a i (es h)) (m := run c (.write a i h)) hpre.1
      (unit (match_write hc hR (fit hpre.1.1) hpre.2)) fun _ _ _ _ _ hq => hq
  | writeMove a i h =>
    exact step_moves hc hA hR (op := .write a i (es h)) (m := run c (.writeMove a i h)) hpre.1
      (unit (match_writeMove hc hR (fit hpre.1.1) hpre.2)) fun _ _ _ _ _ hq => hq
  | append a h =>
    exact step_copies hc hA hR (op := .append a (es h)) (m := run c (.append a h)) hpre.1
      (unit (match_append hc hR (fit hpre.1) hpre.2)) fun _ _ _ _ _ hq => hq
  | appendMove a h =>
    exact step_moves hc hA hR (op := .append a (es h)) (m := run c (.appendMove a h)) hpre.1
      (unit (match_appendMove hc hR (fit hpre.1) hpre.2)) fun _ _ _ _ _ hq => hq
  | insert a p h =>
    exact step_copies hc hA hR (op := .insertItem a p (es h)) (m := run c (.insert a p h)) hpre.1
      (unit (match_insertItem hc hR (fit hpre.1) hpre.2)) fun _ _ _ _ _ hq => hq
  | insertMove a p h =>
    exact step_moves hc hA hR (op := .insertItem a p (es h)) (m := run c (.insertMove a p h)) hpre.1
      (unit (match_insertItemMove hc hR (fit hpre.1) hpre.2)) fun _ _ _ _ _ hq => hq
  | replace a p h =>
    exact step_copies hc hA hR (op := .replaceItem a p (es h)) (m := run c (.replace a p h)) hpre.1
      (unit (match_replaceItem hc hR (fit hpre.1.1) hpre.2)) fun _ _ _ _ _ hq => hq
  | replaceMove a p h =>
    exact step_moves hc hA hR (op := .replaceItem a p (es h)) (m := run c (.replaceMove a p h)) hpre.1
      (unit (match_replaceItemMove hc hR (fit hpre.1.1) hpre.2)) fun _ _ _ _ _ hq => hq
  | get a i =>
    exact step_hands hc hA hR (op := .read a i) (m := run c (.get a i)) hpre
      (hand (match_mono (match_get hc hR) fun _ _ _ _ _ hq => ⟨hq.1, hq.2.imp fun _ hy => ⟨hy.1, hy.2.1⟩⟩)) fun _ _ _ _ _ hq => hq
  | getAt a i =>
    exact step_hands hc hA hR (op := .at a i) (m := run c (.getAt a i)) hpre
      (hand (match_getAt hc hR)) fun _ _ _ _ _ hq => hq
  | shift a =>
    exact step_hands hc hA hR (op := .shift a) (m := run c (.shift a)) hpre
      (hand (match_shift hc hR)) fun _ _ _ _ _ hq => hq
  | pop a =>
    exact step_hands hc hA hR (op := .pop a) (m := run c (.pop a)) hpre
      (hand (match_pop hc hR)) fun _ _ _ _ _ hq => hq
  | modify a i op =>
    obtain ⟨hhas, hi, hop⟩ := hpre
    have hb : Spec.Pre c.val (shared σ) ea (.begin a) := hhas
    have hm := match_getOwnCopy hc hR (fit hhas)
    have hv := val_valid c
    have hph := val_phys hc
    obtain ⟨out, σ1, ea1, h1, h2, h3⟩ := hA.call hv hph hb
    cases hg : Rca.getOwnCopy c.val a σ with
    | ub =>
      have e : Rca.run c.val (.begin a) σ = .ub := by unfold Rca.run; exact bind_ub hg
      rw [e] at h1; cases h1
    | throw e σ' =>
      have e1 : Rca.run c.val (.begin a) σ = .throw e σ' := bind_throw' hg
      rw [e1] at h1; cases h1
      rw [hg] at hm
      obtain ⟨w', hw, hR'⟩ := hm
      rcases h2 with ⟨h2, _⟩ | ⟨h2, rfl⟩
      · cases h2
      · cases h2
        refine ⟨.exc .badAlloc, w', es, _, ?_, .inl ⟨rfl, rfl, rfl⟩, σ1, hR', by rw [← hR.shared]; exact h3⟩
        unfold run modify
        dsimp only
        rw [pbind_assoc, pbind_throw hw]; rfl
    | ok u σ' =>
      have e1 : Rca.run c.val (.begin a) σ = .ok .unit σ' := by
        show (Rca.getOwnCopy c.val a >>= fun _ => (pure Out.unit : M Elem (Out Elem))) σ = _
        rw [bind_ok hg]; rfl
      rw [e1] at h1; cases h1
      rw [hg] at hm
      obtain ⟨_, w1, us', hw, hR1, rfl⟩ := hm
      have hea : ea1 = ea := by
        rcases h2 with ⟨_, h2⟩ | ⟨h2, _⟩
        · exact h2
        · cases h2
      subst hea
      obtain ⟨v, hv'⟩ := hhas
      have hget : ea1.get a = v := by unfold Env.get; rw [hv']
      have hsh : Shows σ1 a v := by have := (h3.agrees hv hph) a; rw [hv'] at this; exact this
      rw [hget] at hi
      have hrd := hsh.2 i hi
      rw [List.getElem?_eq_getElem hi] at hrd
      have hx : readRange a i 1 σ1 = .ok [v[i]] σ1 := by
        unfold Rca.read at hrd
        obtain ⟨xs, s1, hx, hx'⟩ := bind_inv hrd
        obtain ⟨rfl, ob, ho, hcase⟩ := readRange_inv hx
        rcases hcase with ⟨h0, _⟩ | ⟨b, B, _, _, hle, rfl⟩
        · cases h0
        · rw [hx]
          rw [window_one (by omega)] at hx' ⊢
          change Bdlib.Res.ok (some _) _ = _ at hx'
          simp only [Bdlib.Res.ok.injEq, Option.some.injEq, and_true] at hx'
          rw [hx']
      have hopx : ∀ t sh, us' t = .dead → Spec.Pre c.str sh (us'.upd t v[i]) (op t) ∧ op t ≠ .destroy t := fun t sh ht =>
        hop t v[i] sh ht (by rw [hget]; exact List.getElem?_eq_getElem hi)
      obtain ⟨t, sh, o, s', e, σ2, hr, hcell, hd, hpost, hwr, hRel⟩ := rel_modify hc hR1 hx hopx
      have hwpre : Spec.Pre c.val (shared σ) ea1 (.write a i (e t)) := ⟨⟨v, hv'⟩, by rw [hget]; exact hi⟩
      obtain ⟨out', σ3, ea3, hr3, hp3, hR3⟩ := hA.call hv hph hwpre
      have e3 : Rca.run c.val (.write a i (e t)) σ = .ok .unit σ2 := by
        show ((Rca.getOwnCopy c.val a >>= fun _ => writeRange a i [e t]) >>= fun _ => (pure Out.unit : M Elem (Out Elem))) σ = _
        rw [bind_assoc', bind_ok hg, bind_ok hwr]; rfl
      rw [e3] at hr3; cases hr3
      have hea3 : ea3 = ea1.upd a (.val ((ea1.get a).set i (e t))) := by
        rcases hp3 with ⟨_, h2⟩ | ⟨h2, _⟩
        · exact h2
        · cases h2
      refine ⟨ofStr o, _, _, ea3, ?_, .inr ⟨t, v[i], sh, o, e, hd, ?_, hpost, rfl, rfl, hea3⟩, _, hRel, hR3⟩
      · unfold run modify
        dsimp only
        rw [pbind_assoc, pbind_ok hw, pbind_assoc, pbind_ok hcell]
        cases hrr : Rca.run c.str (op t) w1.strs with
        | ub => rw [hrr] at hr; cases hr
        | ok x s =>
          rw [hrr] at hr; cases hr
          rw [pbind_ok (strs_ok hrr)]; rfl
        | throw ex s =>
          rw [hrr] at hr; cases hr
          have : strs (Rca.run c.str (op t)) w1 = .throw ex { w1 with strs := s' } := by simp only [P.strs, hrr]
          rw [pbind_throw this]; rfl
      · rw [hget]; exact List.getElem?_eq_getElem hi

theorem inv_step (h : Inv c w us ea) {call : Call} (hpre : Pre c (shared w.strs) (shared w.arrs) us ea call) :
    ∃ out w' us' es' ea' L, result (run c call w) = some (out, w') ∧
      Post c (shared w.strs) (shared w.arrs) us ea call out es' ea' ∧
      Grown es' us' L ∧ L.length = wasted ea call out ∧ Inv c w' us' ea' := by
  have one : (∀ out, wasted ea call out = 0) → (∃ out w' es' ea', result (run c call w) = some (out, w') ∧
      Post c (shared w.strs) (shared w.arrs) us ea call out es' ea' ∧ Inv c w' es' ea') →
      ∃ out w' us' es' ea' L, result (run c call w) = some (out, w') ∧
      Post c (shared w.strs) (shared w.arrs) us ea call out es' ea' ∧
      Grown es' us' L ∧ L.length = wasted ea call out ∧ Inv c w' us' ea' := by
    rintro h0 ⟨out, w', es', ea', h1, h2, h3⟩
    exact ⟨out, w', es', es', ea', [], h1, h2, .refl _, (h0 out).symm, h3⟩
  have main := inv_step_plain hc h hpre
  cases call
  case fillCtor n t => exact step_fillCtor hc h hpre
  case resizeFill a n t => exact step_resizeFill hc h hpre.1 hpre.2
  all_goals exact one (fun _ => rfl) (main (by intros; simp) (by intros; simp))


omit hc in
theorem inv_init : Inv c {} Env.empty Env.empty := by
  refine ⟨{}, ⟨Env.empty, .init, ⟨fun a => ?_, rfl, rfl, rfl⟩, fun a => ?_, fun a a' h hm => ?_, fun a h hm => ?_, fun _ _ => rfl⟩, .init⟩
  · simp [St.blk]
  · simp [cellsAt, St.blk]
  · simp [cellsAt, St.blk] at hm
  · simp [cellsAt, St.blk] at hm

/-! ## Strings nobody destroys -/

omit hc in
theorem call_pre_cut {C : Nat → Prop} {ss sa : Nat → Bool} {call : Call} (hl : ∀ x, C x → us x ≠ .dead)
    (h : Pre c ss sa (cut C us) ea call) : Pre c ss sa us ea call := by
  cases call with
  | str op => exact pre_cut h
  | arr op => exact h
  | listCtor hs => exact fun x hx => live_cut (h x hx)
  | assignList a hs => exact ⟨h.1, fun x hx => live_cut (h.2 x hx)⟩
  | fillCtor n t => exact live_cut h
  | resizeFill a n t | append a t | appendMove a t | insert a p t | insertMove a p t => exact ⟨h.1, live_cut h.2⟩
  | write a i t | writeMove a i t | replace a i t | replaceMove a i t =>
    have := h.1
    rw [cut_out (cut_live h.2)] at this
    exact ⟨this, live_cut h.2⟩
  | get a i | getAt a i | shift a | pop a => exact h
  | modify a i op =>
    refine ⟨h.1, h.2.1, fun t y sh ht hy => ?_⟩
    have hCt : ¬ C t := fun hC => hl t hC ht
    obtain ⟨h1, h2⟩ := h.2.2 t y sh (by rw [cut_out hCt]; exact ht) hy
    rw [← cut_upd hCt] at h1
    exact ⟨pre_cut h1, h2⟩

omit hc in
theorem call_post_cut {C : Nat → Prop} {ss sa : Nat → Bool} {call : Call} {out : Fin} {es' : Env UInt8} {ea' : Env Elem}
    (hl : ∀ x, C x → us x ≠ .dead) (hpre : Pre c ss sa (cut C us) ea call) (h : Post c ss sa us ea call out es' ea') :
    Post c ss sa (cut C us) ea call out (cut C es') ea' ∧ ∀ x, C x → es' x ≠ .dead := by
  have copies : ∀ {op op' : Op Elem}, op' = op → Copies c sa us ea op out es' ea' →
      Copies c sa (cut C us) ea op' out (cut C es') ea' ∧ ∀ x, C x → es' x ≠ .dead := by
    rintro op _ rfl ⟨o, h1, h2, rfl⟩
    exact ⟨⟨o, h1, h2, rfl⟩, hl⟩
  have moves : ∀ {op op' : Op Elem} {t : Nat}, ¬ C t → op' = op → Moves c sa us ea t op out es' ea' →
      Moves c sa (cut C us) ea t op' out (cut C es') ea' ∧ ∀ x, C x → es' x ≠ .dead := by
    rintro op _ t ht rfl ⟨o, h1, h2, rfl⟩
    cases o with
    | ret x =>
      refine ⟨⟨.ret x, h1, h2, cut_upd ht _⟩, fun x hx => ?_⟩
      show (us.upd t _) x ≠ _
      rw [Env.upd_ne fun (e : x = t) => ht (e ▸ hx)]
      exact hl x hx
    | exc e => exact ⟨⟨.exc e, h1, h2, rfl⟩, hl⟩
  have hands : ∀ {op : Op Elem}, Hands c sa us ea op out es' ea' →
      Hands c sa (cut C us) ea op out (cut C es') ea' ∧ ∀ x, C x → es' x ≠ .dead := by
    rintro op (⟨t, y, hd, h1, h2, rfl⟩ | ⟨e, h1, h2, rfl⟩)
    · have hCt : ¬ C t := fun hC => hl t hC hd
      refine ⟨.inl ⟨t, y, by rw [cut_out hCt]; exact hd, h1, h2, cut_upd hCt _⟩, fun x hx => ?_⟩
      rw [Env.upd_ne fun (e : x = t) => hCt (e ▸ hx)]
      exact hl x hx
    · exact ⟨.inr ⟨e, h1, h2, rfl⟩, hl⟩
  have lst : ∀ {hs : List Nat}, (∀ x ∈ hs, (cut C us).Live x) → hs.map (cut C us) = hs.map us := fun hh =>
    List.map_congr_left fun x hx => cut_out (cut_live (hh x hx))
  cases call with
  | str op =>
    obtain ⟨o, h1, h2, h3⟩ := h
    exact ⟨⟨o, post_cut hl hpre h1, h2, h3⟩, fun x hx => by rw [hidden_same hl hpre h1 hx]; exact hl x hx⟩
  | arr op => exact copies rfl h
  | listCtor hs => exact copies (by rw [lst hpre]) h
  | assignList a hs => exact copies (by rw [lst hpre.2]) h
  | fillCtor n t => exact copies (by rw [cut_out (cut_live hpre)]) h
  | resizeFill a n t | append a t | insert a p t | write a i t | replace a i t =>
    exact copies (by rw [cut_out (cut_live hpre.2)]) h
  | appendMove a t | insertMove a p t | writeMove a i t | replaceMove a i t =>
    exact moves (cut_live hpre.2) (by rw [cut_out (cut_live hpre.2)]) h
  | get a i | getAt a i | shift a | pop a => exact hands h
  | modify a i op =>
    rcases h with ⟨h1, rfl, h2⟩ | ⟨t, y, sh, o, e, hd, hy, hp, ho, rfl, he⟩
    · exact ⟨.inl ⟨h1, rfl, h2⟩, hl⟩
    · have hCt : ¬ C t := fun hC => hl t hC hd
      have hdc : cut C us t = .dead := by rw [cut_out hCt]; exact hd
      have hpr := (hpre.2.2 t y sh hdc hy).1
      rw [← cut_upd hCt] at hpr
      have hl' : ∀ x, C x → (us.upd t y) x ≠ .dead := fun x hx => by
        rw [Env.upd_ne fun (e : x = t) => hCt (e ▸ hx)]; exact hl x hx
      refine ⟨.inr ⟨t, y, sh, o, cut C e, hdc, hy, ?_, ho, cut_upd hCt _, ?_⟩, fun x hx => ?_⟩
      · rw [← cut_upd hCt]; exact post_cut hl' hpr hp
      · rw [cut_out hCt]; exact he
      · rw [Env.upd_ne fun (e : x = t) => hCt (e ▸ hx), hidden_same hl' hpr hp hx]
        exact hl' x hx

omit hc in
/-- In addition to the strings of the program there are strings nobody will destroy. -/
def All (c : Conf) (w : World) (es : Env UInt8) (ea : Env Elem) (lost : Nat) : Prop :=
  ∃ (us : Env UInt8) (H : List Nat), H.Nodup ∧ H.length = lost ∧ (∀ x ∈ H, us x ≠ .dead) ∧ es = cut (· ∈ H) us ∧ Inv c w us ea

theorem all_step {lost : Nat} (h : All c w es ea lost) {call : Call} (hpre : Pre c (shared w.strs) (shared w.arrs) es ea call) :
    ∃ out w' es' ea', result (run c call w) = some (out, w') ∧
      Post c (shared w.strs) (shared w.arrs) es ea call out es' ea' ∧ All c w' es' ea' (lost + wasted ea call out) := by
  obtain ⟨us, H, hnd, hlen, hlive, rfl, hI⟩ := h
  obtain ⟨out, w', us', es', ea', L, h1, h2, h3, h4, h5⟩ := inv_step hc hI (call_pre_cut hlive hpre)
  obtain ⟨h6, h7⟩ := call_post_cut hlive hpre h2
  refine ⟨out, w', _, ea', h1, h6, us', H ++ L, ?_, by rw [List.length_append, hlen, h4], fun x hx => ?_, ?_, h5⟩
  · refine List.nodup_append.2 ⟨hnd, h3.nodup, ?_⟩
    rintro x hx y hy rfl
    exact h7 x hx (h3.new x hy).1
  · rcases List.mem_append.1 hx with hx | hx
    · rw [h3.same x fun hm => h7 x hx (h3.new x hm).1]; exact h7 x hx
    · exact (h3.new x hx).2
  · funext x
    by_cases hx : x ∈ H
    · rw [cut_in hx, cut_in (List.mem_append_left _ hx)]
    · rw [cut_out hx]
      by_cases hL : x ∈ L
      · rw [cut_in (List.mem_append_right _ hL)]; exact (h3.new x hL).1
      · rw [cut_out fun hm => (List.mem_append.1 hm).elim hx hL]
        exact (h3.same x hL).symm

theorem all_sees {lost : Nat} (h : All c w es ea lost) : Sees w es ea lost := by
  obtain ⟨us, H, hnd, hlen, hlive, rfl, h⟩ := h
  obtain ⟨σ, ⟨env, hR⟩, hA⟩ := h
  have hs := hR.reach.agrees hc.valid hc.phys
  have ha := hA.agrees (val_valid c) (val_phys hc)
  have holds : ∀ t, env t ≠ .dead → Holds w t (env t) := by
    intro t ht
    have := hs t
    cases he : env t with
    | dead => exact absurd he ht
    | unspec => rw [he] at this; exact this
    | val v => rw [he] at this; exact this
  refine ⟨fun t ht => ?_, fun a => ?_, fun h1 h2 => ?_⟩
  · have hn : t ∉ H := cut_live ht
    rw [cut_out hn] at ht ⊢
    obtain ⟨_, he⟩ := user_not_cell hR ht
    rw [← he] at ht ⊢
    exact holds t ht
  · have := ha a
    cases he : ea a with
    | dead => rw [he] at this; exact (hR.like.obj a).symm.trans this
    | unspec => rw [he] at this; obtain ⟨ob, this⟩ := this; exact ⟨ob, (hR.like.obj a).symm.trans this⟩
    | val v =>
      rw [he] at this
      refine ⟨?_, fun i y hy => ?_⟩
      · have hl := this.1
        unfold Rca.length at hl ⊢
        obtain ⟨ob, s1, h1, h2⟩ := bind_inv hl
        obtain ⟨rfl, ho⟩ := getObj_inv h1
        rw [hR.like.obj] at ho
        rw [bind_ok (getObj_eq ho)]
        change Bdlib.Res.ok _ _ = _ at h2
        simp only [Bdlib.Res.ok.injEq, and_true] at h2
        show Bdlib.Res.ok ob.sublen _ = _
        rw [h2]
      · obtain ⟨hi, rfl⟩ := List.getElem?_eq_some_iff.mp hy
        have hrd := this.2 i hi
        rw [List.getElem?_eq_getElem hi] at hrd
        unfold Rca.read at hrd
        obtain ⟨xs, s1, hx, hx'⟩ := bind_inv hrd
        obtain ⟨rfl, t, b, B, ob, _, _, hb, _, _, _, hcell, rfl, hm⟩ := cell_ok hR hx
        refine ⟨t, hcell, ?_⟩
        change Bdlib.Res.ok (some _) _ = _ at hx'
        simp only [Bdlib.Res.ok.injEq, Option.some.injEq, and_true] at hx'
        rw [← hx']
        exact holds t (hR.live hb hm)
  · have hblk : ∀ b, w.arrs.blk b = none := by
      intro b
      have := c02_no_leak (val_valid c) (val_phys hc) hA h2 b
      rw [hR.like.blk] at this
      cases hb : w.arrs.blk b with
      | none => rfl
      | some B => rw [hb] at this; cases this
    have henv : ∀ t, us t = env t := fun t => hR.rest t fun a hm => by
      unfold cellsAt at hm; rw [hblk a] at hm; cases hm
    refine ⟨hblk, ⟨H, hnd, hlen, fun t => ⟨?_, fun ht => ?_⟩⟩, fun b B hb => ?_⟩
    · rintro ⟨ob, hob⟩
      refine Classical.byContradiction fun hn => ?_
      have hd := h1 t
      rw [cut_out hn, henv] at hd
      have := hs t
      rw [hd] at this
      rw [this] at hob; cases hob
    · have hl := hlive t ht
      rw [henv] at hl
      have := hs t
      cases he : env t with
      | dead => exact absurd he hl
      | unspec => rw [he] at this; exact this
      | val v =>
        rw [he] at this
        have hl := this.1
        unfold Rca.length at hl
        obtain ⟨ob, s1, h1, _⟩ := bind_inv hl
        exact ⟨ob, (getObj_inv h1).2⟩
    · obtain ⟨t, ht⟩ := (c02_storage_iff_owner hc.valid hc.phys hR.reach b).mp ⟨B, hb⟩
      obtain ⟨ob, hob, hr⟩ := obj_of_storage ht
      exact ⟨t, ob, hob, hr⟩

theorem all_plays : ∀ (n : Nat) {w : World} {es : Env UInt8} {ea : Env Elem} {lost : Nat}, All c w es ea lost →
    Plays c n w es ea lost
  | 0, _, _, _, _, h => all_sees hc h
  | n + 1, _, _, _, _, h => ⟨all_sees hc h, fun call hpre => by
      obtain ⟨out, w', es', ea', h1, h2, h3⟩ := all_step hc h hpre
      exact ⟨out, w', es', ea', h1, h2, all_plays n h3⟩⟩

omit hc in
theorem all_init : All c {} Env.empty Env.empty 0 :=
  ⟨Env.empty, [], .nil, rfl, by simp, funext fun x => (cut_out (by simp)).symm, inv_init⟩

end Steps

end Bdlib.Nest
