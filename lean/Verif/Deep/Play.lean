import Verif.Deep.Algos
import Verif.Deep.Own

/-!
# Every history of calls at every depth
-/

namespace Bdlib.Deep
open Bdlib Bdlib.Spec Bdlib.Rca
open Pg (undef)

variable {p : Params}

/-! ## Only its destructor ends the life of an object -/

theorem post_keeps {n : Nat} {sh : Sh n} {E E' : Envs n} {call : Call n} {out : End n} {t : Nat} (hpre : Pre p sh E call)
    (hk : ¬ Kills call t) (h : Post p sh E call out E') (ht : E.top t ≠ .dead) : E'.top t ≠ .dead := by
  cases call with
  | str op =>
    obtain ⟨o, h1, _⟩ := h
    exact Nest.post_live hpre hk h1 ht
  | inner call =>
    obtain ⟨o, _, _, h3⟩ := h
    show E'.2 t ≠ _
    rw [h3]; exact ht
  | arr op =>
    obtain ⟨o, h1, _, _⟩ := h
    exact Nest.post_live hpre.2 hk h1 ht
  | listCtor hs =>
    obtain ⟨o, h1, _, _⟩ := h
    exact Nest.post_live (cfg := vals p _) (op := .listCtor _) (show (vals p _).slack = 0 from rfl) (fun h => by cases h) h1 ht
  | assignList a hs =>
    obtain ⟨o, h1, _, _⟩ := h
    exact Nest.post_live (op := .assignList a _) hpre.1 (fun h => by cases h) h1 ht
  | write a i x | writeMove a i x =>
    obtain ⟨o, h1, _, _⟩ := h
    exact Nest.post_live (op := .write a i _) hpre.1 (fun h => by cases h) h1 ht
  | append a x | appendMove a x =>
    obtain ⟨o, h1, _, _⟩ := h
    exact Nest.post_live (op := .append a _) hpre.1 (fun h => by cases h) h1 ht
  | insert a i x | insertMove a i x =>
    obtain ⟨o, h1, _, _⟩ := h
    exact Nest.post_live (op := .insertItem a i _) hpre.1 (fun h => by cases h) h1 ht
  | replace a i x | replaceMove a i x =>
    obtain ⟨o, h1, _, _⟩ := h
    exact Nest.post_live (op := .replaceItem a i _) hpre.1 (fun h => by cases h) h1 ht
  | writeOf a j b i =>
    obtain ⟨y, _, hq⟩ := hpre
    obtain ⟨z, _, o, h1, _, _⟩ := h
    exact Nest.post_live (op := .write a j z) hq (fun h => by cases h) h1 ht
  | appendOf a b i =>
    obtain ⟨y, _, o, h1, _, _⟩ := h
    exact Nest.post_live (op := .append a y) hpre.1 (fun h => by cases h) h1 ht
  | insertOf a pos b i =>
    obtain ⟨y, _, o, h1, _, _⟩ := h
    exact Nest.post_live (op := .insertItem a pos y) hpre.1 (fun h => by cases h) h1 ht
  | replaceOf a pos b i =>
    obtain ⟨y, _, hq⟩ := hpre
    obtain ⟨z, _, o, h1, _, _⟩ := h
    exact Nest.post_live (op := .replaceItem a pos z) hq (fun h => by cases h) h1 ht
  | get a i =>
    rcases h with ⟨_, _, _, h1, _⟩ | ⟨_, h1, _⟩ <;>
      exact Nest.post_live (op := .read a i) hpre (fun h => by cases h) h1 ht
  | getAt a i =>
    rcases h with ⟨_, _, _, h1, _⟩ | ⟨_, h1, _⟩ <;>
      exact Nest.post_live (op := .at a i) hpre (fun h => by cases h) h1 ht
  | shift a =>
    rcases h with ⟨_, _, _, h1, _⟩ | ⟨_, h1, _⟩ <;>
      exact Nest.post_live (op := .shift a) hpre (fun h => by cases h) h1 ht
  | pop a =>
    rcases h with ⟨_, _, _, h1, _⟩ | ⟨_, h1, _⟩ <;>
      exact Nest.post_live (op := .pop a) hpre (fun h => by cases h) h1 ht
  | modify a i f =>
    have key : ∀ v : List _, (E.2.upd a (.val v)) t ≠ .dead := fun v => by
      by_cases hta : t = a
      · subst hta; rw [Env.upd_self]; intro h; cases h
      · rw [Env.upd_ne hta]; exact ht
    rcases h with ⟨_, _, h⟩ | ⟨_, _, _, _, _, _, _, _, _, _, h⟩
    · show E'.2 t ≠ _
      rw [h]
      split
      · exact key _
      · exact ht
    · show E'.2 t ≠ _
      rw [h]; exact key _
  | algo rev back a f =>
    have key : ∀ v : List _, (E.2.upd a (.val v)) t ≠ .dead := fun v => by
      by_cases hta : t = a
      · subst hta; rw [Env.upd_self]; intro h; cases h
      · rw [Env.upd_ne hta]; exact ht
    rcases h with ⟨_, _, h⟩ | ⟨_, _, h⟩
    · show E'.2 t ≠ _
      rw [h]
      split
      · exact key _
      · exact ht
    · show E'.2 t ≠ _
      rw [h]; exact key _
  | look a i f =>
    obtain ⟨_, _, _, _, _, _, _, _, _, _, h⟩ := h
    show E'.2 t ≠ _
    rw [h]; exact ht
  | strEq a b | eq a b | equals a b k =>
    obtain ⟨_, _, _, rfl⟩ := h
    exact ht
  | find a x | rfind a x =>
    obtain ⟨_, _, _, rfl⟩ := h
    exact ht
  | findFrom a x pos =>
    unfold Post at h
    split at h
    · obtain ⟨_, _, _, rfl⟩ := h
      exact ht
    · obtain ⟨_, rfl⟩ := h
      exact ht
  | hash a =>
    obtain ⟨_, rfl⟩ := h
    exact ht

theorem observes_frame {T : Type} {cfg : Cfg T} {sh : Nat → Bool} {env env' : Env T} {op : Op T} {out : Outcome T}
    (ho : OnlyLooks op) (h : Spec.Post cfg sh env op out env') : env' = env :=
  match op, ho, h with
  | .length _, _, h | .read _ _, _, h | .hash _, _, h => h.2
  | .at o i, _, h => by
    unfold Spec.Post at h
    dsimp only at h
    split at h <;> exact h.2

/-- A call leaves the objects alone that it does not write. -/
theorem post_spares {n : Nat} {sh : Sh n} {E E' : Envs n} {call : Call n} {out : End n} {t : Nat}
    (hk : ¬ Writes call t) (h : Post p sh E call out E') (ht : E.top t ≠ .dead) : E'.top t = E.top t := by
  have one : ∀ {T : Type} {cfg : Cfg T} {sh : Nat → Bool} {env env' : Env T} {op : Op T} {o : Outcome T},
      Spec.Post cfg sh env op o env' → ¬ (op.Touches t ∧ ¬ OnlyLooks op) → env t ≠ .dead → env' t = env t :=
    fun {T cfg sh env env' op o} h hk ht => by
      by_cases ho : OnlyLooks op
      · rw [observes_frame ho h]
      · exact post_frame h (fun h => hk ⟨h, ho⟩) ht
  cases call with
  | str op =>
    obtain ⟨o, h1, _⟩ := h
    exact one h1 hk ht
  | inner call =>
    obtain ⟨o, _, _, h3⟩ := h
    show E'.2 t = _
    rw [h3]; rfl
  | arr op =>
    obtain ⟨o, h1, _, _⟩ := h
    exact one h1 hk ht
  | listCtor hs =>
    obtain ⟨o, h1, _, _⟩ := h
    exact post_frame h1 id ht
  | assignList a hs =>
    obtain ⟨o, h1, _, _⟩ := h
    exact post_frame h1 hk ht
  | write a i x | writeMove a i x | insert a i x | insertMove a i x | replace a i x | replaceMove a i x =>
    obtain ⟨o, h1, _, _⟩ := h
    exact post_frame h1 hk ht
  | append a x | appendMove a x =>
    obtain ⟨o, h1, _, _⟩ := h
    exact post_frame h1 hk ht
  | writeOf a j b i | appendOf a b i | insertOf a pos b i | replaceOf a pos b i =>
    obtain ⟨y, _, o, h1, _, _⟩ := h
    exact post_frame h1 hk ht
  | get a i | getAt a i =>
    rcases h with ⟨_, _, _, h1, _⟩ | ⟨_, h1, _⟩ <;> exact one h1 (fun h => h.2 trivial) ht
  | shift a | pop a =>
    rcases h with ⟨_, _, _, h1, _⟩ | ⟨_, h1, _⟩ <;> exact post_frame h1 hk ht
  | modify a i f =>
    have hne : t ≠ a := hk
    rcases h with ⟨_, _, h⟩ | ⟨_, _, _, _, _, _, _, _, _, _, h⟩
    · show E'.2 t = E.2 t
      rw [h]
      split
      · exact Env.upd_ne hne
      · rfl
    · show E'.2 t = E.2 t
      rw [h]; exact Env.upd_ne hne
  | algo rev back a f =>
    have hne : t ≠ a := hk
    rcases h with ⟨_, _, h⟩ | ⟨_, _, h⟩
    · show E'.2 t = E.2 t
      rw [h]
      split
      · exact Env.upd_ne hne
      · rfl
    · show E'.2 t = E.2 t
      rw [h]; exact Env.upd_ne hne
  | look a i f =>
    obtain ⟨_, _, _, _, _, _, _, _, _, _, h⟩ := h
    show E'.2 t = E.2 t
    rw [h]
  | strEq a b | eq a b | equals a b k =>
    obtain ⟨_, _, _, rfl⟩ := h
    rfl
  | find a x | rfind a x =>
    obtain ⟨_, _, _, rfl⟩ := h
    rfl
  | findFrom a x pos =>
    unfold Post at h
    split at h
    · obtain ⟨_, _, _, rfl⟩ := h
      rfl
    · obtain ⟨_, rfl⟩ := h
      rfl
  | hash a =>
    obtain ⟨_, rfl⟩ := h
    rfl

/-! ## Calls on arrays, seen by a program that does not know all of them -/

section Steps
variable {n : Nat} {w : World (level p n)} {E : Envs (n + 1)} {C : Nat → Prop} {σ : St (Slot (Ty n))}

/-- What a step of the proof establishes: the call is defined, keeps the invariant and the objects hidden by `C`,
and has the effect `S` on what the program knows. -/
def Does (p : Params) {n : Nat} (C : Nat → Prop) (w : Mem p n) (E : Envs n) (m : Pg (Mem p n) (Ans n))
    (S : End n → Envs n → Prop) : Prop :=
  ∃ out w' E', result (m w) = some (out, w') ∧ Keeps p w' E' ∧ (∀ x, C x → E'.top x = E.top x) ∧
    S out (E'.put (cut C E'.top))

/-- Abbreviation: the invariant of the elements. -/
abbrev Elts (p : Params) {n : Nat} (E : Envs n) : Mem p n → Env (Ty n) → Prop := fun m env => Keeps p m (E.put env)

theorem does_copies (hp : p.Good) (hl : ∀ x, C x → E.2 x ≠ .dead) (hR : Rel (Elts p E.1) E.1.top σ w)
    (hA : Reach (vals p n) σ E.2) {op : Op (Slot (Ty n))} (hpre : Spec.Pre (vals p n) (shared w.arrs) (cut C E.2) op)
    {m : P (level p n) (Ans (n + 1))}
    {Q : Ans (n + 1) → Out (Slot (Ty n)) → Env (Ty n) → World (level p n) → St (Slot (Ty n)) → Prop}
    (hm : Match (Elts p E.1) E.1.top (m w) (Rca.run (vals p n) op σ) Q)
    (hq : ∀ x b us' w' σ', Q x b us' w' σ' → x = .here (n := n + 1) b ∧ us' = E.1.top) :
    Does p (n := n + 1) C w E m fun out E' => Copies p (shares p (n := n + 1) w) (E.1, cut C E.2) op out E' := by
  have hpre' := pre_cut hpre
  rw [← hR.shared] at hpre'
  rcases step_of_match (tower_good hp n E.1) hA hpre' hm with
    ⟨x, b, σ', w', es', ea', h1, h2, h3, h4, h5⟩ | ⟨e, σ', w', ea', h1, h2, h4, h5⟩ <;> rw [hR.shared] at h4
  · obtain ⟨rfl, rfl⟩ := hq _ _ _ _ _ h3
    exact ⟨.ret (.here (n := n + 1) b), w', (E.1, ea'), by rw [h1]; rfl, ⟨σ', h2, h5⟩, fun x hx => hidden_same hl hpre h4 hx,
      .ret b, post_cut hl hpre h4, rfl, rfl⟩
  · exact ⟨.exc e, w', (E.1, ea'), by rw [h1]; rfl, ⟨σ', h2, h5⟩, fun x hx => hidden_same hl hpre h4 hx,
      .exc e, post_cut hl hpre h4, rfl, rfl⟩

/-- The invariant only speaks of the depths below through their environments. -/
theorem elts_put (p : Params) {n : Nat} (E : Envs n) (e : Env (Ty n)) : Elts p (E.put e) = Elts p E := by
  funext m env
  show Keeps p m _ = Keeps p m _
  rw [Envs.put_put]

theorem keeps_of (E : Envs n) {e : Env (Ty n)} {ea : Env (Slot (Ty n))} {w' : World (level p n)} {σ' : St (Slot (Ty n))}
    (h1 : Rel (Elts p E) e σ' w') (h2 : Reach (vals p n) σ' ea) : Keeps p (n := n + 1) w' (E.put e, ea) := by
  refine ⟨σ', ?_, h2⟩
  have := elts_put p E e
  show Rel (Elts p (E.put e)) (E.put e).top σ' w'
  rw [this, Envs.top_put]; exact h1

theorem does_moves (hp : p.Good) (hl : ∀ x, C x → E.2 x ≠ .dead) (hR : Rel (Elts p E.1) E.1.top σ w)
    (hA : Reach (vals p n) σ E.2) {op : Op (Slot (Ty n))} {t : Nat}
    (hpre : Spec.Pre (vals p n) (shared w.arrs) (cut C E.2) op) {m : P (level p n) (Ans (n + 1))}
    {Q : Ans (n + 1) → Out (Slot (Ty n)) → Env (Ty n) → World (level p n) → St (Slot (Ty n)) → Prop}
    (hm : Match (Elts p E.1) E.1.top (m w) (Rca.run (vals p n) op σ) Q)
    (hq : ∀ x b us' w' σ', Q x b us' w' σ' → x = .here (n := n + 1) b ∧ us' = E.1.top.upd t (left p n)) :
    Does p (n := n + 1) C w E m fun out E' => Moves p (shares p (n := n + 1) w) (E.1, cut C E.2) t op out E' := by
  have hpre' := pre_cut hpre
  rw [← hR.shared] at hpre'
  rcases step_of_match (tower_good hp n E.1) hA hpre' hm with
    ⟨x, b, σ', w', es', ea', h1, h2, h3, h4, h5⟩ | ⟨e, σ', w', ea', h1, h2, h4, h5⟩ <;> rw [hR.shared] at h4
  · obtain ⟨rfl, rfl⟩ := hq _ _ _ _ _ h3
    exact ⟨.ret (.here (n := n + 1) b), w', (E.1.put _, ea'), by rw [h1]; rfl, keeps_of E.1 h2 h5,
      fun x hx => hidden_same hl hpre h4 hx, .ret b, post_cut hl hpre h4, rfl, rfl⟩
  · exact ⟨.exc e, w', (E.1, ea'), by rw [h1]; rfl, ⟨σ', h2, h5⟩, fun x hx => hidden_same hl hpre h4 hx,
      .exc e, post_cut hl hpre h4, rfl, rfl⟩

theorem does_hands (hp : p.Good) (hl : ∀ x, C x → E.2 x ≠ .dead) (hR : Rel (Elts p E.1) E.1.top σ w)
    (hA : Reach (vals p n) σ E.2) {op : Op (Slot (Ty n))}
    (hpre : Spec.Pre (vals p n) (shared w.arrs) (cut C E.2) op) {m : P (level p n) (Ans (n + 1))}
    {Q : Ans (n + 1) → Out (Slot (Ty n)) → Env (Ty n) → World (level p n) → St (Slot (Ty n)) → Prop}
    (hm : Match (Elts p E.1) E.1.top (m w) (Rca.run (vals p n) op σ) Q)
    (hq : ∀ x b us' w' σ', Q x b us' w' σ' → ∃ t y, x = .inner (.here (.obj t)) ∧ b = .elem (some y) ∧
      E.1.top t = .dead ∧ us' = E.1.top.upd t y) :
    Does p (n := n + 1) C w E m fun out E' => Hands p (shares p (n := n + 1) w) (E.1, cut C E.2) op out E' := by
  have hpre' := pre_cut hpre
  rw [← hR.shared] at hpre'
  rcases step_of_match (tower_good hp n E.1) hA hpre' hm with
    ⟨x, b, σ', w', es', ea', h1, h2, h3, h4, h5⟩ | ⟨e, σ', w', ea', h1, h2, h4, h5⟩ <;> rw [hR.shared] at h4
  · obtain ⟨t, y, rfl, rfl, hd, rfl⟩ := hq _ _ _ _ _ h3
    exact ⟨.ret (.inner (.here (.obj t))), w', (E.1.put _, ea'), by rw [h1]; rfl, keeps_of E.1 h2 h5,
      fun x hx => hidden_same hl hpre h4 hx, .inl ⟨t, y, hd, post_cut hl hpre h4, rfl, rfl⟩⟩
  · exact ⟨.exc e, w', (E.1, ea'), by rw [h1]; rfl, ⟨σ', h2, h5⟩, fun x hx => hidden_same hl hpre h4 hx,
      .inr ⟨e, post_cut hl hpre h4, rfl, rfl⟩⟩

end Steps

/-! ## Every call -/

theorem inner_run {n : Nat} {α β : Type} {m : Pg (Mem p n) α} {f : α → β} {w : World (level p n)} :
    (do let x ← elts m; return f x : P (level p n) β) w = match m w.elts with
      | .ok a s => .ok (f a) { w with elts := s }
      | .throw e s => .throw e { w with elts := s }
      | .ub => .ub := by
  show Pg.bind (elts m) _ w = _
  unfold Pg.bind elts
  cases m w.elts <;> rfl

theorem result_inner {n : Nat} {m : Pg (Mem p n) (Ans n)} {w : World (level p n)} {out : End n} {s' : Mem p n}
    (h : result (m w.elts) = some (out, s')) :
    result ((do let x ← elts m; return .inner x : P (level p n) (Ans (n + 1))) w) = some (out.inner, { w with elts := s' }) := by
  rw [inner_run]
  cases hm : m w.elts with
  | ub => rw [hm] at h; cases h
  | ok a s => rw [hm] at h; cases h; rfl
  | throw e s => rw [hm] at h; cases h; rfl

section Shapes
variable {n : Nat} {w : World (level p n)} {E : Envs (n + 1)} {σ : St (Slot (Ty n))}

theorem fit (hp : p.Good) {C : Nat → Prop} (hA : Reach (vals p n) σ E.2) {o : Nat} (ho : (cut C E.2).Has o) : Fit σ o :=
  fit_of (tower_good hp n E.1) hA (has_cut ho)

theorem unit {m : P (level p n) Unit} {m' : M (Slot (Ty n)) Unit} {us' : Env (Ty n)}
    (hm : Match (Elts p E.1) E.1.top (m w) (m' σ) (fun _ _ u _ _ => u = us')) :
    Match (Elts p E.1) E.1.top ((do m; return .here .unit : P (level p n) (Ans (n + 1))) w) (mapOut m' (fun _ => .unit) σ)
      fun x b u _ _ => x = .here (n := n + 1) b ∧ u = us' :=
  match_out hm fun _ _ _ _ _ _ hq => ⟨_, rfl, rfl, hq⟩

theorem hand {m : P (level p n) Nat} {m' : M (Slot (Ty n)) (Option (Slot (Ty n)))}
    (hm : Match (Elts p E.1) E.1.top (m w) (m' σ)
      (fun t v us' _ _ => E.1.top t = .dead ∧ ∃ y, v = some y ∧ us' = E.1.top.upd t y)) :
    Match (Elts p E.1) E.1.top ((do let t ← m; return .inner (.here (.obj t)) : P (level p n) (Ans (n + 1))) w)
      (mapOut m' .elem σ) fun x b us' _ _ => ∃ t y, x = .inner (.here (.obj t)) ∧ b = .elem (some y) ∧ E.1.top t = .dead ∧
        us' = E.1.top.upd t y :=
  match_out hm fun a _ _ _ _ _ ⟨hd, y, hb, hu⟩ => ⟨_, rfl, a, y, rfl, by rw [hb], hd, hu⟩

end Shapes

theorem cut_val {T : Type} {C : Nat → Prop} {e : Env T} {a : Nat} {v : List T} (h : cut C e a = .val v) :
    e a = .val v ∧ (cut C e).get a = v := by
  refine ⟨?_, by unfold Env.get; rw [h]⟩
  by_cases hC : C a
  · rw [cut_in hC] at h; cases h
  · rwa [cut_out hC] at h

theorem does_mono {n : Nat} {C : Nat → Prop} {w : Mem p n} {E : Envs n} {m : Pg (Mem p n) (Ans n)} {S S' : End n → Envs n → Prop}
    (h : Does p C w E m S) (hs : ∀ out E', S out E' → S' out E') : Does p C w E m S' := by
  obtain ⟨out, w', E', h1, h2, h3, h4⟩ := h
  exact ⟨out, w', E', h1, h2, h3, hs _ _ h4⟩

/-- The code of a call with an element as argument, given the object that lives there. -/
theorem does_element (hp : p.Good) {n : Nat} {w : World (level p n)} {E : Envs (n + 1)} {C : Nat → Prop} {σ : St (Slot (Ty n))}
    (hl : ∀ x, C x → E.2 x ≠ .dead) (hR : Rel (Elts p E.1) E.1.top σ w) (hA : Reach (vals p n) σ E.2) {b i : Nat} {y : Slot (Ty n)}
    (hy : Nth (cut C E.2) b i y) {op : Op (Slot (Ty n))} (hpre : Spec.Pre (vals p n) (shared w.arrs) (cut C E.2) op)
    {f : Nat → P (level p n) Unit} {m' : M (Slot (Ty n)) Unit} (hrun : Rca.run (vals p n) op = mapOut m' fun _ => .unit)
    (hm : ∀ x q v, E.2 b = .val v → v[i]? = some y → PointsTo w.arrs q x → ptrTo b i σ = .ok q σ →
      Match (Elts p E.1) E.1.top (f x w) (m' σ) fun _ _ us' _ _ => us' = E.1.top) :
    Does p (n := n + 1) C w E (do let h ← cell (level p n) b i; f h; return .here .unit : P (level p n) (Ans (n + 1)))
      fun out E' => Copies p (shares p (n := n + 1) w) (E.1, cut C E.2) op out E' := by
  obtain ⟨v, hb, hi⟩ := hy
  have hb' := (cut_val hb).1
  have hwf := (hA.inv (val_valid (level p n) (code p n) (left p n)) (val_phys (tower_good hp n E.1))).1
  have hsh : Shows σ b v := by
    have := hA.agrees (val_valid (level p n) (code p n) (left p n)) (val_phys (tower_good hp n E.1)) b
    rw [hb'] at this; exact this
  have hil : i < v.length := (List.getElem?_eq_some_iff.mp hi).1
  obtain ⟨env, hRE⟩ := hR
  have hrd := hsh.2 i hil
  unfold Rca.read at hrd
  obtain ⟨xs, s1, hx, hx'⟩ := bind_inv hrd
  obtain ⟨rfl, x, a, B, ob, ho, hr, hB, hlt, hgx, _, hcell, _, _⟩ := cell_ok hRE hx
  have hoσ : s1.obj b = some ob := by rw [hRE.like.obj]; exact ho
  have hBσ := hRE.like.blk_some hB
  have hptr : ptrTo b i s1 = .ok ⟨a, B.gen, ob.offset + i⟩ s1 := by
    unfold ptrTo
    rw [bind_ok (getObj_eq hoσ)]
    simp only [hr]
    rw [bind_ok (getBlk_eq hBσ)]
    rfl
  have hlives : PointsTo w.arrs ⟨a, B.gen, ob.offset + i⟩ x := by
    refine ⟨B, hB, rfl, hgx, ?_⟩
    have := hwf.gens _ _ hBσ
    rw [hRE.like.gen] at this
    exact this
  have hmatch := hm x _ v hb' hi hlives hptr
  obtain ⟨out, w', E', h1, h2, h3, h4⟩ := does_copies hp hl ⟨env, hRE⟩ hA hpre (m := do f x; return .here .unit)
    (by rw [hrun]; exact unit hmatch) fun _ _ _ _ _ hq => hq
  exact ⟨out, w', E', by rw [pbind_ok hcell]; exact h1, h2, h3, h4⟩

/-- A call on an element, once the array owns its storage. -/
theorem rel_modify {n : Nat} {w : World (level p n)} {E : Envs n} {σ : St (Slot (Ty n))} {f : Nat → Call n}
    (ih : ∀ t, ∀ {C : Nat → Prop} {w : Mem p n} {E : Envs n}, Keeps p w E → (∀ x, C x → E.top x ≠ .dead) →
      Pre p (shares p w) (E.put (cut C E.top)) (f t) →
      Does p C w E (run p (f t)) fun out E' => Post p (shares p w) (E.put (cut C E.top)) (f t) out E')
    (h : Rel (Elts p E) E.top σ w) {o i : Nat} {x : Slot (Ty n)} (hx : readRange o i 1 σ = .ok [x] σ)
    (hpre : ∀ t s, E.top t = .dead → Pre p s (E.upd t x) (f t) ∧ ¬ Kills (f t) t) :
    ∃ t sh out s' F σ', result (run p (f t) w.elts) = some (out, s') ∧ cell (level p n) o i w = .ok t w ∧ E.top t = .dead ∧
      Post p sh (E.upd t x) (f t) out F ∧ writeRange o i [F.top t] σ = .ok () σ' ∧
      Rel (Elts p F) (F.top.upd t .dead) σ' (⟨s', w.arrs⟩ : World (level p n)) := by
  obtain ⟨env, h⟩ := h
  obtain ⟨_, t, a, b, ob, ho, hr, hb, hlt, hget, hwin, hcell, hxs, hm⟩ := cell_ok h hx
  have hxt : x = env t := by simpa using hxs
  subst hxt
  have hta : t ∈ cellsAt w.arrs a := by rw [cellsAt_some hb]; exact hm
  have hut : E.top t = .dead := (h.cell a t hta).2
  have hlive := h.live hb hm
  let C : Nat → Prop := fun x => x ≠ t ∧ ∃ a, x ∈ cellsAt w.arrs a
  have hcut : E.top.upd t (env t) = cut C env := by
    funext y
    by_cases hy : y = t
    · subst hy; rw [Env.upd_self, cut_out fun hC => hC.1 rfl]
    · rw [Env.upd_ne hy]
      by_cases hC : ∃ a, y ∈ cellsAt w.arrs a
      · obtain ⟨a', ha'⟩ := hC
        rw [cut_in ⟨hy, a', ha'⟩]; exact (h.cell a' y ha').2
      · rw [cut_out fun hC' => hC hC'.2]; exact h.rest y fun a' ha' => hC ⟨a', ha'⟩
  have he : (E.put env).put (cut C (E.put env).top) = E.upd t (env t) := by
    rw [Envs.top_put, Envs.put_put, ← hcut]; rfl
  obtain ⟨hp, hnd⟩ := hpre t (shares p w.elts) hut
  obtain ⟨out, s', F, h1, h2, h3, h4⟩ := ih t (C := C) (w := w.elts) (E := E.put env) h.reach
    (fun x ⟨_, a, ha⟩ => by rw [Envs.top_put]; exact (h.cell a x ha).1) (by rw [he]; exact hp)
  rw [he] at h4
  rw [Envs.top_put] at h3
  have hCt : ¬ C t := fun hC => hC.1 rfl
  have hsame : ∀ y, C y → F.top y = env y := h3
  have hlive' : F.top t ≠ .dead := by
    have := post_keeps hp hnd h4 (by unfold Envs.upd; rw [Envs.top_put, Env.upd_self]; exact hlive)
    rwa [Envs.top_put, cut_out hCt] at this
  have hle : ob.offset + i + 1 ≤ b.cells.length := hlt
  have hB : σ.blk a = some (mapBlk env b) := by rw [h.like.blk, hb]; rfl
  have hoσ : σ.obj o = some ob := by rw [h.like.obj]; exact ho
  have hmap : b.cells.map F.top = overwrite (b.cells.map env) (ob.offset + i) [F.top t] := by
    refine overwrite_map (h.nodup_blk hb) (n := 1) hle ?_ fun y hy hyw => ?_
    · rw [hwin]; rfl
    · rw [hwin, List.mem_singleton] at hyw
      exact hsame y ⟨hyw, a, by rw [cellsAt_some hb]; exact hy⟩
  have hwr : writeRange o i [F.top t] σ = .ok () (σ.setBlk a (some (mapBlk F.top b))) := by
    have e : mapBlk F.top b = { mapBlk env b with cells := overwrite (mapBlk env b).cells (ob.offset + i) [F.top t] } := by
      unfold mapBlk
      simp only
      rw [hmap]
    rw [e]
    exact writeRange_do hoσ hr hB (by simpa [mapBlk] using hle)
  refine ⟨t, shares p w.elts, out, s', F.put (cut C F.top), _, h1, hcell, hut, h4,
    by rw [Envs.top_put, cut_out hCt]; exact hwr, F.top, ?_⟩
  rw [elts_put, Envs.top_put]
  refine RelE.block (R' := Elts p F) h (by show Keeps p s' _; rw [Envs.put_top]; exact h2) hb (fun y hy => ?_)
    (fun a' y hne hy => ?_) (fun a' y hy => ?_) fun y hy => ?_
  · by_cases e : y = t
    · subst e; exact hlive'
    · rw [hsame y ⟨e, a, by rw [cellsAt_some hb]; exact hy⟩]; exact h.live hb hy
  · exact hsame y ⟨fun e => hne (h.disj a' a y hy (e ▸ hta)), a', hy⟩
  · by_cases e : y = t
    · subst e; rw [Env.upd_self]
    · rw [Env.upd_ne e, cut_in ⟨e, a', hy⟩]
  · have e : y ≠ t := fun e => hy a (e ▸ hta)
    rw [Env.upd_ne e, cut_out]
    rintro ⟨_, a', ha'⟩
    exact hy a' ha'

/-- A call that looks at an element. -/
theorem rel_look {n : Nat} {w : World (level p n)} {E : Envs n} {σ : St (Slot (Ty n))} {f : Nat → Call n}
    (ih : ∀ t, ∀ {C : Nat → Prop} {w : Mem p n} {E : Envs n}, Keeps p w E → (∀ x, C x → E.top x ≠ .dead) →
      Pre p (shares p w) (E.put (cut C E.top)) (f t) →
      Does p C w E (run p (f t)) fun out E' => Post p (shares p w) (E.put (cut C E.top)) (f t) out E')
    (h : Rel (Elts p E) E.top σ w) {o i : Nat} {x : Slot (Ty n)} (hx : readRange o i 1 σ = .ok [x] σ)
    (hpre : ∀ t s, E.top t = .dead → Pre p s (E.upd t x) (f t) ∧ ¬ Writes (f t) t) :
    ∃ t sh out s' F, result (run p (f t) w.elts) = some (out, s') ∧ cell (level p n) o i w = .ok t w ∧ E.top t = .dead ∧
      Post p sh (E.upd t x) (f t) out F ∧ Rel (Elts p F) (F.top.upd t .dead) σ (⟨s', w.arrs⟩ : World (level p n)) := by
  obtain ⟨env, h⟩ := h
  obtain ⟨_, t, a, b, ob, ho, hr, hb, hlt, hget, hwin, hcell, hxs, hm⟩ := cell_ok h hx
  have hxt : x = env t := by simpa using hxs
  subst hxt
  have hta : t ∈ cellsAt w.arrs a := by rw [cellsAt_some hb]; exact hm
  have hut : E.top t = .dead := (h.cell a t hta).2
  have hlive := h.live hb hm
  let C : Nat → Prop := fun x => x ≠ t ∧ ∃ a, x ∈ cellsAt w.arrs a
  have hcut : E.top.upd t (env t) = cut C env := by
    funext y
    by_cases hy : y = t
    · subst hy; rw [Env.upd_self, cut_out fun hC => hC.1 rfl]
    · rw [Env.upd_ne hy]
      by_cases hC : ∃ a, y ∈ cellsAt w.arrs a
      · obtain ⟨a', ha'⟩ := hC
        rw [cut_in ⟨hy, a', ha'⟩]; exact (h.cell a' y ha').2
      · rw [cut_out fun hC' => hC hC'.2]; exact h.rest y fun a' ha' => hC ⟨a', ha'⟩
  have he : (E.put env).put (cut C (E.put env).top) = E.upd t (env t) := by
    rw [Envs.top_put, Envs.put_put, ← hcut]; rfl
  obtain ⟨hp, hnd⟩ := hpre t (shares p w.elts) hut
  obtain ⟨out, s', F, h1, h2, h3, h4⟩ := ih t (C := C) (w := w.elts) (E := E.put env) h.reach
    (fun x ⟨_, a, ha⟩ => by rw [Envs.top_put]; exact (h.cell a x ha).1) (by rw [he]; exact hp)
  rw [he] at h4
  rw [Envs.top_put] at h3
  have hCt : ¬ C t := fun hC => hC.1 rfl
  have hsame : F.top t = env t := by
    have := post_spares hnd h4 (by unfold Envs.upd; rw [Envs.top_put, Env.upd_self]; exact hlive)
    rwa [Envs.top_put, cut_out hCt, show (E.upd t (env t)).top t = env t by unfold Envs.upd; rw [Envs.top_put, Env.upd_self]] at this
  refine ⟨t, shares p w.elts, out, s', F.put (cut C F.top), h1, hcell, hut, h4, F.top, ?_⟩
  rw [elts_put, Envs.top_put]
  refine h.user (R' := Elts p F) (by show Keeps p s' _; rw [Envs.put_top]; exact h2) (fun a' y hy => ?_) (fun a' y hy => ?_)
    fun y hy => ?_
  · by_cases e : y = t
    · subst e; exact hsame
    · exact h3 y ⟨e, a', hy⟩
  · by_cases e : y = t
    · subst e; rw [Env.upd_self]
    · rw [Env.upd_ne e, cut_in ⟨e, a', hy⟩]
  · have e : y ≠ t := fun e => hy a (e ▸ hta)
    rw [Env.upd_ne e, cut_out]
    rintro ⟨_, a', ha'⟩
    exact hy a' ha'

/-! ## Calls that compare, search or hash -/

theorem known_val {n : Nat} {C : Nat → Prop} {e : Env (Slot (Ty n))} {a : Nat} (h : Known (n := n + 1) (cut C e a)) :
    ∃ xs, e a = .val xs ∧ (cut C e).get a = xs ∧ cut C e a = .val xs ∧ ∀ x ∈ xs, Known x := by
  obtain ⟨xs, h1, h2⟩ := h
  have := cut_val (T := Slot (Ty n)) h1
  exact ⟨xs, this.1, this.2, h1, h2⟩

theorem known_live {n : Nat} {y : Slot (Ty n)} (h : Known y) : y ≠ .dead := by
  cases n with
  | zero => obtain ⟨_, rfl⟩ := h; intro h; cases h
  | succ n => obtain ⟨_, rfl, _⟩ := h; intro h; cases h

theorem does_looks (hp : p.Good) {n : Nat} {w : World (level p n)} {E : Envs (n + 1)} {C : Nat → Prop} {β : Type}
    {m : P (level p n) β} {q : β → Prop} {f : β → Ans (n + 1)} {S : End (n + 1) → Envs (n + 1) → Prop}
    (h : Keeps p (n := n + 1) w E)
    (hm : ∀ env, (∀ x, E.1.top x ≠ .dead → env x = E.1.top x) → Frame (level p n) env w.arrs E.2 →
      Looks (Elts p E.1) env w.arrs m q)
    (hS : ∀ b, q b → S (.ret (f b)) (E.1, cut C E.2)) :
    Does p (n := n + 1) C w E (do let r ← m; return f r : P (level p n) _) S := by
  obtain ⟨b, w', h1, h2, h3⟩ := inv_looks (c := level p n) (tower_good hp n E.1) h hm
  exact ⟨.ret (f b), w', E, by rw [show (do let r ← m; return f r : P (level p n) _) w = _ from pbind_ok h1]; rfl,
    h2, fun _ _ => rfl, hS b h3⟩

theorem bool_iff {b : Bool} {q : Prop} [Decidable q] (h : b = decide q) : b = true ↔ q := by rw [h]; simp

theorem step (hp : p.Good) {n : Nat} (call : Call n) : ∀ {C : Nat → Prop} {w : Mem p n} {E : Envs n}, Keeps p w E →
    (∀ x, C x → E.top x ≠ .dead) → Pre p (shares p w) (E.put (cut C E.top)) call →
    Does p C w E (run p call) fun out E' => Post p (shares p w) (E.put (cut C E.top)) call out E' := by
  induction call with
  | str op =>
    intro C w E h hl hpre
    obtain ⟨out, s', env', h1, h2, h3⟩ := Reach.call (T := UInt8) hp.valid hp.phys h (pre_cut hpre)
    refine ⟨.here (n := 0) out, s', env', ?_, h3, fun x hx => hidden_same hl hpre h2 hx, out, post_cut hl hpre h2, rfl⟩
    show result ((do let x ← Pg.ofM (Rca.run p.str op); return .here (n := 0) x : Pg _ _) w) = _
    show result (Pg.bind (Pg.ofM (Rca.run p.str op)) _ w) = _
    unfold Pg.bind Pg.ofM
    cases hr : Rca.run p.str op w with
    | ub => rw [hr] at h1; cases h1
    | ok a s => rw [hr] at h1; cases h1; rfl
    | throw e s => rw [hr] at h1; cases h1; rfl
  | inner call ih =>
    rename_i n
    intro C w E h hl hpre
    obtain ⟨σ, ⟨env, hR⟩, hA⟩ := h
    have hc := hR.cut
    have hk : Keeps p w.elts (E.1.put env) := hR.reach
    have he : (E.1.put env).put (cut (fun x => ∃ a, x ∈ cellsAt w.arrs a) (E.1.put env).top) = E.1 := by
      rw [Envs.top_put, Envs.put_put, ← hc, Envs.put_top]
    obtain ⟨out, s', F, h1, h2, h3, h4⟩ := ih hk (C := fun x => ∃ a, x ∈ cellsAt w.arrs a)
      (fun x ⟨a, ha⟩ => by rw [Envs.top_put]; exact (hR.cell a x ha).1) (by rw [he]; exact hpre)
    rw [he] at h4
    rw [Envs.top_put] at h3
    have hrel : Rel (Elts p F) (cut (fun x => ∃ a, x ∈ cellsAt w.arrs a) F.top) σ (⟨s', w.arrs⟩ : World (level p n)) := by
      refine ⟨F.top, hR.user (R' := Elts p F) (by show Keeps p s' _; rw [Envs.put_top]; exact h2)
        (fun a x hx => h3 x ⟨a, hx⟩) (fun a x hx => cut_in ⟨a, hx⟩) fun x hx => cut_out ?_⟩
      rintro ⟨a, ha⟩
      exact hx a ha
    exact ⟨out.inner, { w with elts := s' }, (F.put (cut (fun x => ∃ a, x ∈ cellsAt w.arrs a) F.top), E.2),
      result_inner h1, keeps_of F hrel hA, fun _ _ => rfl, out, h4, rfl, rfl⟩
  | arr op =>
    rename_i n
    intro C w E h hl hpre
    obtain ⟨σ, hR, hA⟩ := h
    have hp' := pre_cut hpre.2
    change Spec.Pre (vals p n) (shared w.arrs) E.2 op at hp'
    rw [← hR.shared] at hp'
    refine does_copies hp hl hR hA hpre.2 (Q := fun x b u _ _ => x = .here (n := n + 1) b ∧ u = E.1.top) ?_ fun _ _ _ _ _ hq => hq
    have hm := match_plain (tower_good hp n E.1) hR hA hpre.1 hp'
    have := match_bind (f := fun x => (pure (.here (n := n + 1) x) : P (level p n) (Ans (n + 1))))
      (f' := fun x => (pure x : M (Slot (Ty n)) (Out (Slot (Ty n)))))
      (Q' := fun x b u _ _ => x = .here (n := n + 1) b ∧ u = E.1.top) hm fun a b us' w' σ' _ hR' hq =>
        ⟨_, w', us', rfl, hR', by rw [hq.1], hq.2⟩
    have e : (Rca.run (vals p n) op >>= fun x => (pure x : M (Slot (Ty n)) (Out (Slot (Ty n))))) σ = Rca.run (vals p n) op σ := by
      show M.bind _ _ σ = _
      unfold M.bind
      cases Rca.run (vals p n) op σ <;> rfl
    exact e ▸ this
  | listCtor hs =>
    rename_i n
    intro C w E h hl hpre
    obtain ⟨σ, hR, hA⟩ := h
    exact does_copies hp hl hR hA (op := .listCtor (hs.map E.1.top)) (show (vals p _).slack = 0 from rfl)
      (match_out (Q' := fun x b u _ _ => x = .here (n := n + 1) b ∧ u = E.1.top)
        (match_listCtor (tower_good hp n E.1) hR hpre) fun a b us' w' σ' _ hq => ⟨_, rfl, by rw [hq.1]; rfl, hq.2⟩) fun _ _ _ _ _ hq => hq
  | assignList a hs =>
    rename_i n
    intro C w E h hl hpre
    obtain ⟨σ, hR, hA⟩ := h
    exact does_copies hp hl hR hA (op := .assignList a (hs.map E.1.top)) hpre.1 (unit (match_assignList (tower_good hp n E.1) hR hpre.2)) fun _ _ _ _ _ hq => hq
  | write a i h =>
    rename_i n
    intro C w E h hl hpre
    obtain ⟨σ, hR, hA⟩ := h
    exact does_copies hp hl hR hA (op := .write a i (E.1.top h)) hpre.1 (unit (match_write (tower_good hp n E.1) hR (fit hp hA hpre.1.1) hpre.2)) fun _ _ _ _ _ hq => hq
  | writeMove a i h =>
    rename_i n
    intro C w E h hl hpre
    obtain ⟨σ, hR, hA⟩ := h
    exact does_moves hp hl hR hA (t := h) (op := .write a i (E.1.top h)) hpre.1 (unit (match_writeMove (tower_good hp n E.1) hR (fit hp hA hpre.1.1) hpre.2)) fun _ _ _ _ _ hq => hq
  | append a h =>
    rename_i n
    intro C w E h hl hpre
    obtain ⟨σ, hR, hA⟩ := h
    exact does_copies hp hl hR hA (op := .append a (E.1.top h)) hpre.1 (unit (match_append (tower_good hp n E.1) hR (fit hp hA hpre.1) hpre.2)) fun _ _ _ _ _ hq => hq
  | appendMove a h =>
    rename_i n
    intro C w E h hl hpre
    obtain ⟨σ, hR, hA⟩ := h
    exact does_moves hp hl hR hA (t := h) (op := .append a (E.1.top h)) hpre.1 (unit (match_appendMove (tower_good hp n E.1) hR (fit hp hA hpre.1) hpre.2)) fun _ _ _ _ _ hq => hq
  | insert a i h =>
    rename_i n
    intro C w E h hl hpre
    obtain ⟨σ, hR, hA⟩ := h
    exact does_copies hp hl hR hA (op := .insertItem a i (E.1.top h)) hpre.1 (unit (match_insertItem (tower_good hp n E.1) hR (fit hp hA hpre.1) hpre.2)) fun _ _ _ _ _ hq => hq
  | insertMove a i h =>
    rename_i n
    intro C w E h hl hpre
    obtain ⟨σ, hR, hA⟩ := h
    exact does_moves hp hl hR hA (t := h) (op := .insertItem a i (E.1.top h)) hpre.1 (unit (match_insertItemMove (tower_good hp n E.1) hR (fit hp hA hpre.1) hpre.2)) fun _ _ _ _ _ hq => hq
  | replace a i h =>
    rename_i n
    intro C w E h hl hpre
    obtain ⟨σ, hR, hA⟩ := h
    exact does_copies hp hl hR hA (op := .replaceItem a i (E.1.top h)) hpre.1 (unit (match_replaceItem (tower_good hp n E.1) hR (fit hp hA hpre.1.1) hpre.2)) fun _ _ _ _ _ hq => hq
  | replaceMove a i h =>
    rename_i n
    intro C w E h hl hpre
    obtain ⟨σ, hR, hA⟩ := h
    exact does_moves hp hl hR hA (t := h) (op := .replaceItem a i (E.1.top h)) hpre.1 (unit (match_replaceItemMove (tower_good hp n E.1) hR (fit hp hA hpre.1.1) hpre.2)) fun _ _ _ _ _ hq => hq
  | writeOf a j b i =>
    rename_i n
    intro C w E h hl hpre
    obtain ⟨σ, hR, hA⟩ := h
    obtain ⟨y, hy, hq⟩ := hpre
    have hg := tower_good hp n E.1
    refine does_mono (does_element hp hl hR hA hy hq (f := fun h => write (level p n) a j h) rfl fun x q v hb hi hx hptr => ?_)
      fun _ _ hc => ⟨y, hy, hc⟩
    obtain ⟨u, hu⟩ := has_cut hq.1
    have e := c16_write (j := j) (val_valid _ _ _) (val_phys hg) (.inl rfl) hA hu hb hi hptr
    have hm := match_writeRef (θ := code p n) (i := j) hg hR (fit hp hA hq.1) hx
    rw [e] at hm
    exact hm
  | appendOf a b i =>
    rename_i n
    intro C w E h hl hpre
    obtain ⟨σ, hR, hA⟩ := h
    obtain ⟨hq, ⟨y, hy⟩, hsh⟩ := hpre
    have hg := tower_good hp n E.1
    refine does_mono (does_element hp hl hR hA hy (op := .append a y) hq (f := fun h => append (level p n) a h) rfl
      fun x q v hb hi hx hptr => ?_) fun _ _ hc => ⟨y, hy, hc⟩
    obtain ⟨u, hu⟩ := has_cut hq
    have hm : ∀ pos, _ := fun pos => match_insertRef (θ := code p n) (pos := pos) hg hR (fit hp hA hq) hx
    have e := fun pos => insertRef_element hg hR hA hu hb hi hptr hsh (pos := pos)
    simp only [e] at hm
    exact match_appendAs hR hm
  | insertOf a pos b i =>
    rename_i n
    intro C w E h hl hpre
    obtain ⟨σ, hR, hA⟩ := h
    obtain ⟨hq, ⟨y, hy⟩, hsh⟩ := hpre
    have hg := tower_good hp n E.1
    refine does_mono (does_element hp hl hR hA hy (op := .insertItem a pos y) hq (f := fun h => insertItem (level p n) a pos h) rfl
      fun x q v hb hi hx hptr => ?_) fun _ _ hc => ⟨y, hy, hc⟩
    obtain ⟨u, hu⟩ := has_cut hq
    have hm := match_insertRef (θ := code p n) (pos := pos) hg hR (fit hp hA hq) hx
    rw [insertRef_element hg hR hA hu hb hi hptr hsh] at hm
    exact hm
  | replaceOf a pos b i =>
    rename_i n
    intro C w E h hl hpre
    obtain ⟨σ, hR, hA⟩ := h
    obtain ⟨y, hy, hq⟩ := hpre
    have hg := tower_good hp n E.1
    refine does_mono (does_element hp hl hR hA hy hq (f := fun h => replaceItem (level p n) a pos h) rfl fun x q v hb hi hx hptr => ?_)
      fun _ _ hc => ⟨y, hy, hc⟩
    obtain ⟨u, hu⟩ := has_cut hq.1
    have e := c16_replace (j := pos) (val_valid _ _ _) (val_phys hg) (.inl rfl) hA hu hb hi hptr
    have hm := match_replaceRef (θ := code p n) (pos := pos) hg hR (fit hp hA hq.1) hx
    rw [e] at hm
    exact hm
  | get a i =>
    rename_i n
    intro C w E h hl hpre
    obtain ⟨σ, hR, hA⟩ := h
    exact does_hands hp hl hR hA (op := .read a i) hpre (hand (match_mono (match_get (tower_good hp n E.1) hR) fun _ _ _ _ _ hq => ⟨hq.1, hq.2.imp fun _ hy => ⟨hy.1, hy.2.1⟩⟩)) fun _ _ _ _ _ hq => hq
  | getAt a i =>
    rename_i n
    intro C w E h hl hpre
    obtain ⟨σ, hR, hA⟩ := h
    exact does_hands hp hl hR hA (op := .at a i) hpre (hand (match_getAt (tower_good hp n E.1) hR)) fun _ _ _ _ _ hq => hq
  | shift a =>
    rename_i n
    intro C w E h hl hpre
    obtain ⟨σ, hR, hA⟩ := h
    exact does_hands hp hl hR hA (op := .shift a) hpre (hand (match_shift (tower_good hp n E.1) hR)) fun _ _ _ _ _ hq => hq
  | pop a =>
    rename_i n
    intro C w E h hl hpre
    obtain ⟨σ, hR, hA⟩ := h
    exact does_hands hp hl hR hA (op := .pop a) hpre (hand (match_pop (tower_good hp n E.1) hR)) fun _ _ _ _ _ hq => hq
  | modify a i f ih =>
    rename_i n
    intro C w E h hl hpre
    obtain ⟨σ, hR, hA⟩ := h
    obtain ⟨hhas', hi', hop⟩ := hpre
    have hCa : ¬ C a := cut_has hhas'
    have hhas : E.2.Has a := has_cut hhas'
    have hgc : (cut C E.2).get a = E.2.get a := get_cut hCa
    have hi : i < (E.2.get a).length := by rw [← hgc]; exact hi'
    have hg := tower_good hp n E.1
    have hm := match_getOwnCopy (θ := code p n) hg hR (fit hp hA hhas')
    have hv := val_valid (level p n) (code p n) (left p n)
    have hph := val_phys (θ := code p n) hg
    have hb : Spec.Pre (vals p n) (shared σ) E.2 (.begin a) := hhas
    obtain ⟨out, σ1, ea1, h1, h2, h3⟩ := hA.call hv hph hb
    cases hg : Rca.getOwnCopy (vals p n) a σ with
    | ub =>
      have e : Rca.run (vals p n) (.begin a) σ = .ub := by unfold Rca.run; exact bind_ub hg
      rw [show Rca.run ((level p n).val (code p n) (left p n)) (.begin a) σ = .ub from e] at h1; cases h1
    | throw e σ' =>
      have e1 : Rca.run (vals p n) (.begin a) σ = .throw e σ' := bind_throw' hg
      rw [show Rca.run ((level p n).val (code p n) (left p n)) (.begin a) σ = .throw e σ' from e1] at h1; cases h1
      rw [show Rca.getOwnCopy ((level p n).val (code p n) (left p n)) a σ = _ from hg] at hm
      obtain ⟨w', hw, hR'⟩ := hm
      have hq := h2
      rcases h2 with ⟨h2, _⟩ | ⟨h2, rfl⟩
      · cases h2
      · cases h2
        refine ⟨.exc .badAlloc, w', (E.1, if shared σ a then E.2.upd a (.val []) else E.2), ?_, ⟨σ1, hR', h3⟩, fun x hx => ?_, .inl ⟨rfl, rfl, ?_⟩⟩
        · show result ((modify (level p n) a i _ >>= _) w) = _
          unfold modify
          rw [pbind_assoc]
          erw [pbind_throw hw]; rfl
        · have hxa : x ≠ a := fun e => hCa (e ▸ hx)
          show (if shared σ a then E.2.upd a (.val []) else E.2) x = E.2 x
          split
          · exact Env.upd_ne hxa
          · rfl
        · show cut C (if shared σ a then E.2.upd a (.val []) else E.2) =
            if shared w.arrs a then (cut C E.2).upd a (.val []) else cut C E.2
          rw [hR.shared]
          split
          · exact cut_upd hCa _
          · rfl
    | ok u σ' =>
      have e1 : Rca.run (vals p n) (.begin a) σ = .ok .unit σ' := by
        show (Rca.getOwnCopy (vals p n) a >>= fun _ => (pure Out.unit : M (Slot (Ty n)) (Out (Slot (Ty n))))) σ = _
        rw [bind_ok hg]; rfl
      rw [show Rca.run ((level p n).val (code p n) (left p n)) (.begin a) σ = _ from e1] at h1; cases h1
      rw [show Rca.getOwnCopy ((level p n).val (code p n) (left p n)) a σ = _ from hg] at hm
      obtain ⟨_, w1, us', hw, hR1, rfl⟩ := hm
      have hea : ea1 = E.2 := by
        rcases h2 with ⟨_, h2⟩ | ⟨h2, _⟩
        · exact h2
        · cases h2
      subst hea
      obtain ⟨v, hv'⟩ := hhas
      have hget : E.2.get a = v := by unfold Env.get; rw [hv']
      have hsh : Shows σ1 a v := by have := (h3.agrees hv hph) a; rw [hv'] at this; exact this
      rw [hget] at hi
      have hrd := hsh.2 i hi
      rw [List.getElem?_eq_getElem hi] at hrd
      have hx : readRange a i 1 σ1 = .ok [v[i]] σ1 := by
        unfold Rca.read at hrd
        obtain ⟨xs, s1, hx, hx'⟩ := bind_inv hrd
        obtain ⟨rfl, ob, ho, hcase⟩ := readRange_inv hx
        rcases hcase with ⟨h0, _⟩ | ⟨b, B, _, _, hle, rfl⟩
        · cases h0
        · rw [hx]
          rw [window_one (by omega)] at hx' ⊢
          change Bdlib.Res.ok (some _) _ = _ at hx'
          simp only [Bdlib.Res.ok.injEq, Option.some.injEq, and_true] at hx'
          rw [hx']
      have hgi : (E.2.get a)[i]? = some v[i] := by rw [hget]; exact List.getElem?_eq_getElem hi
      obtain ⟨t, sh, o, s', F, σ2, hr, hcell, hd, hpost, hwr, hRel⟩ := rel_modify (fun t => ih t) hR1 hx fun t s ht =>
        hop t v[i] s ht (by show ((cut C E.2).get a)[i]? = _; rw [hgc]; exact hgi)
      have hwpre : Spec.Pre (vals p n) (shared σ) E.2 (.write a i (F.top t)) := ⟨⟨v, hv'⟩, by rw [hget]; exact hi⟩
      obtain ⟨out', σ3, ea3, hr3, hp3, hR3⟩ := hA.call hv hph hwpre
      have e3 : Rca.run (vals p n) (.write a i (F.top t)) σ = .ok .unit σ2 := by
        show ((Rca.getOwnCopy (vals p n) a >>= fun _ => writeRange a i [F.top t]) >>= fun _ =>
          (pure Out.unit : M (Slot (Ty n)) (Out (Slot (Ty n))))) σ = _
        rw [bind_assoc', bind_ok hg, bind_ok hwr]; rfl
      rw [show Rca.run ((level p n).val (code p n) (left p n)) (.write a i (F.top t)) σ = _ from e3] at hr3; cases hr3
      have hea3 : ea3 = E.2.upd a (.val ((E.2.get a).set i (F.top t))) := by
        rcases hp3 with ⟨_, h2⟩ | ⟨h2, _⟩
        · exact h2
        · cases h2
      refine ⟨o.inner, { w1 with elts := s' }, (F.put (F.top.upd t .dead), ea3), ?_, keeps_of F hRel hR3, fun x hx => ?_,
        .inr ⟨t, v[i], sh, o, F, hd, ?_, hpost, rfl, rfl, ?_⟩⟩
      · show result ((modify (level p n) a i (fun h => run p (f h)) >>= fun x => pure (.inner x)) w) = _
        unfold modify
        rw [pbind_assoc]; erw [pbind_ok hw]; rw [pbind_assoc]; erw [pbind_ok hcell]
        exact result_inner hr
      · show ea3 x = E.2 x
        rw [hea3, Env.upd_ne fun (e : x = a) => hCa (e ▸ hx)]
      · show ((cut C E.2).get a)[i]? = _
        rw [hgc]; exact hgi
      · show cut C ea3 = (cut C E.2).upd a (.val (((cut C E.2).get a).set i (F.top t)))
        rw [hea3, hgc, cut_upd hCa]
  | algo rev back a f =>
    rename_i n
    intro C w E h hl hpre
    obtain ⟨σ, hR, hA⟩ := h
    obtain ⟨hhas', hok'⟩ := hpre
    have hCa : ¬ C a := cut_has hhas'
    have hhas : E.2.Has a := has_cut hhas'
    obtain ⟨v, hv⟩ := hhas
    have hgc : (cut C E.2).get a = v := by rw [get_cut hCa]; unfold Env.get; rw [hv]
    have hok : (f v.length).Ok (left p n) ⟨turned rev v, []⟩ := by
      have := hok'
      rw [show (Envs.put (n := n + 1) E (cut C (Envs.top (n := n + 1) E))).2.get a = v from hgc] at this
      exact this
    rcases algorithm_ok (tower_good hp n E.1) (tower_cmp hp n E.1) hR hA hv rev back f hok with ⟨w', σ', h1, hR', hA'⟩ | ⟨w', σ', h1, hR', hA'⟩
    · refine ⟨.exc .badAlloc, w', (E.1, if shared σ a then E.2.upd a (.val []) else E.2), ?_, ⟨σ', hR', hA'⟩, fun x hx => ?_, .inl ⟨rfl, rfl, ?_⟩⟩
      · show result ((algorithm (level p n) (cmpAt p) rev back a f >>= _) w) = _
        erw [pbind_throw h1]; rfl
      · have hxa : x ≠ a := fun e => hCa (e ▸ hx)
        show (if shared σ a then E.2.upd a (.val []) else E.2) x = E.2 x
        split
        · exact Env.upd_ne hxa
        · rfl
      · show cut C (if shared σ a then E.2.upd a (.val []) else E.2) =
          if shared w.arrs a then (cut C E.2).upd a (.val []) else cut C E.2
        rw [hR.shared]
        split
        · exact cut_upd hCa _
        · rfl
    · refine ⟨End.here ((f v.length).effect (left p n) ⟨turned rev v, []⟩).1, w', (E.1, E.2.upd a (.val (turned rev ((f v.length).effect (left p n) ⟨turned rev v, []⟩).2))), ?_,
        ⟨σ', hR', hA'⟩, fun x hx => ?_, .inr ⟨?_, rfl, ?_⟩⟩
      · show result ((algorithm (level p n) (cmpAt p) rev back a f >>= fun r => pure (.here (.num r))) w) = _
        rcases h1 with ⟨k, e, h1⟩ | ⟨x, e, h1⟩
        · erw [pbind_ok h1]; rw [e]; rfl
        · erw [pbind_throw h1]; rw [e]; rfl
      · exact Env.upd_ne fun (e : x = a) => hCa (e ▸ hx)
      · show _ = End.here ((f ((cut C E.2).get a).length).effect (left p n) ⟨turned rev ((cut C E.2).get a), []⟩).1
        rw [hgc]
      · show cut C (E.2.upd a _) = (cut C E.2).upd a (.val (turned rev ((f ((cut C E.2).get a).length).effect (left p n) ⟨turned rev ((cut C E.2).get a), []⟩).2))
        rw [hgc, cut_upd hCa]
  | look a i f ih =>
    rename_i n
    intro C w E h hl hpre
    obtain ⟨σ, hR, hA⟩ := h
    obtain ⟨hhas', hi', hop⟩ := hpre
    have hCa : ¬ C a := cut_has hhas'
    have hgc : (cut C E.2).get a = E.2.get a := get_cut hCa
    have hi : i < (E.2.get a).length := by rw [← hgc]; exact hi'
    have hhas : E.2.Has a := has_cut hhas'
    obtain ⟨v, hv'⟩ := hhas
    have hget : E.2.get a = v := by unfold Env.get; rw [hv']
    have hsh : Shows σ a v := by
      have := hA.agrees (val_valid (level p n) (code p n) (left p n)) (val_phys (tower_good hp n E.1)) a
      rw [hv'] at this; exact this
    rw [hget] at hi
    have hx : readRange a i 1 σ = .ok [v[i]] σ := by
      have hrd := hsh.2 i hi
      rw [List.getElem?_eq_getElem hi] at hrd
      unfold Rca.read at hrd
      obtain ⟨xs, s1, hx, hx'⟩ := bind_inv hrd
      obtain ⟨rfl, ob, ho, hcase⟩ := readRange_inv hx
      rcases hcase with ⟨h0, _⟩ | ⟨b, B, _, _, hle, rfl⟩
      · cases h0
      · rw [hx]
        rw [window_one (by omega)] at hx' ⊢
        change Bdlib.Res.ok (some _) _ = _ at hx'
        simp only [Bdlib.Res.ok.injEq, Option.some.injEq, and_true] at hx'
        rw [hx']
    have hgi : ((cut C E.2).get a)[i]? = some v[i] := by rw [hgc, hget]; exact List.getElem?_eq_getElem hi
    obtain ⟨t, sh, o, s', F, hr, hcell, hd, hpost, hRel⟩ := rel_look (fun t => ih t) hR hx fun t s ht => hop t v[i] s ht hgi
    refine ⟨o.inner, { w with elts := s' }, (F.put (F.top.upd t .dead), E.2), ?_, keeps_of F hRel hA, fun x hx => rfl,
      t, v[i], sh, o, F, hd, hgi, hpost, rfl, rfl, rfl⟩
    show result ((look (level p n) a i (fun h => run p (f h)) >>= fun x => pure (.inner x)) w) = _
    unfold look
    rw [pbind_assoc]; erw [pbind_ok hcell]
    exact result_inner hr
  | strEq a b =>
    intro C w E h hl hpre
    obtain ⟨⟨v, ha⟩, ⟨u, hb⟩⟩ := hpre
    obtain ⟨r, s', h1, h2, h3⟩ := tower_eq hp 0 E (env := E) h (a := a) (b := b) ⟨v, (cut_val (T := UInt8) ha).1⟩
      ⟨u, (cut_val (T := UInt8) hb).1⟩
    refine ⟨.ret (.here (n := 0) (.num r.toNat)), s', E, ?_, h2, fun _ _ => rfl, r, rfl, ?_, rfl⟩
    · show result (Pg.bind (eqAt p 0 a b) (fun b => pure (.here (n := 0) (.num b.toNat))) w) = _
      unfold Pg.bind
      rw [h1]; rfl
    · rw [show Envs.top (n := 0) (Envs.put (n := 0) E (cut C (Envs.top (n := 0) E))) a = E a from ha.trans (cut_val (T := UInt8) ha).1.symm,
        show Envs.top (n := 0) (Envs.put (n := 0) E (cut C (Envs.top (n := 0) E))) b = E b from hb.trans (cut_val (T := UInt8) hb).1.symm]
      exact h3
  | eq a b =>
    rename_i n
    intro C w E h hl hpre
    obtain ⟨xs, ha, ha', ha2, hx⟩ := known_val (e := E.2) hpre.1
    obtain ⟨ys, hb, hb', hb2, hy⟩ := known_val (e := E.2) hpre.2
    refine does_looks hp h (fun env _ hF => looks_equals (tower_eq hp n E.1) hF ha hb hx hy) fun r hr => ⟨r, rfl, ?_, rfl⟩
    show r = true ↔ cut C E.2 a = cut C E.2 b
    rw [ha2, hb2, bool_iff hr]
    exact ⟨fun e => e ▸ rfl, fun e => Slot.val.inj e⟩
  | equals a b k =>
    rename_i n
    intro C w E h hl hpre
    obtain ⟨xs, ha, ha', ha2, hx⟩ := known_val (e := E.2) hpre.1
    obtain ⟨ys, hb, hb', hb2, hy⟩ := known_val (e := E.2) hpre.2
    refine does_looks hp h (fun env _ hF => looks_equalsN (tower_eq hp n E.1) hF ha hb hx hy) fun r hr => ⟨r, rfl, ?_, rfl⟩
    show r = true ↔ ((cut C E.2).get a).length = ((cut C E.2).get b).length ∧ ((cut C E.2).get a).take k = ((cut C E.2).get b).take k
    rw [ha', hb']; exact hr
  | find a x =>
    rename_i n
    intro C w E h hl hpre
    obtain ⟨xs, ha, ha', ha2, hx⟩ := known_val (e := E.2) hpre.1
    have hk : Known (E.1.top x) := hpre.2
    refine does_looks hp h (q := Finds Smallest (fun i => xs[i]? = some (E.1.top x)) npos) (fun env he hF => ?_)
      fun r hr => ⟨r, rfl, ?_, rfl⟩
    · have e := he x (known_live hk)
      rw [← e]; exact looks_find (tower_eq hp n E.1) hF ha hx (by rw [e]; exact hk)
    · show Finds Smallest (fun i => ((cut C E.2).get a)[i]? = some (E.1.top x)) npos r
      rw [ha']; exact hr
  | findFrom a x pos =>
    rename_i n
    intro C w E h hl hpre
    obtain ⟨xs, ha, ha', ha2, hx⟩ := known_val (e := E.2) hpre.1
    have hk : Known (E.1.top x) := hpre.2
    by_cases hpos : pos ≤ xs.length
    · refine does_looks hp h (q := Finds Smallest (fun d => xs[pos + d]? = some (E.1.top x)) npos) (fun env he hF => ?_)
        fun r hr => ?_
      · have e := he x (known_live hk)
        rw [← e]; exact looks_findFrom (tower_eq hp n E.1) hF ha hx (by rw [e]; exact hk) hpos
      · show if pos ≤ ((cut C E.2).get a).length then
          Counts _ (Finds Smallest (fun d => ((cut C E.2).get a)[pos + d]? = some (E.1.top x)) npos) _ _ else _
        rw [ha', if_pos hpos]
        exact ⟨r, rfl, hr, rfl⟩
    · have hk := h
      obtain ⟨σ, ⟨env, hR⟩, hA⟩ := h
      refine ⟨.exc .outOfRange, w, E, ?_, hk, fun _ _ => rfl, ?_⟩
      · show result ((findFrom (level p n) (eqAt p n) a x pos >>= fun r => pure (.here (.num r))) w) = _
        erw [pbind_throw (findFrom_throw (hR.frame (tower_good hp n E.1) hA) ha hpos w.elts)]
        rfl
      · show if pos ≤ ((cut C E.2).get a).length then _ else _
        rw [ha', if_neg hpos]
        exact ⟨rfl, rfl⟩
  | rfind a x =>
    rename_i n
    intro C w E h hl hpre
    obtain ⟨xs, ha, ha', ha2, hx⟩ := known_val (e := E.2) hpre.1
    have hk : Known (E.1.top x) := hpre.2
    refine does_looks hp h (q := Finds Largest (fun i => xs[i]? = some (E.1.top x)) npos) (fun env he hF => ?_)
      fun r hr => ⟨r, rfl, ?_, rfl⟩
    · have e := he x (known_live hk)
      rw [← e]; exact looks_rfind (tower_eq hp n E.1) hF ha hx (by rw [e]; exact hk)
    · show Finds Largest (fun i => ((cut C E.2).get a)[i]? = some (E.1.top x)) npos r
      rw [ha']; exact hr
  | hash a =>
    rename_i n
    intro C w E h hl hpre
    obtain ⟨xs, ha, ha', ha2, hx⟩ := known_val (e := E.2) hpre
    obtain ⟨w', h1, h2⟩ := tower_hash hp (n + 1) E (env := E.2) h (a := a) ⟨xs, ha, hx⟩
    refine ⟨.ret (.here (n := n + 1) (.hash (hashOf p (n := n + 1) (E.2 a)))), w', E, ?_, h2, fun _ _ => rfl, ?_, rfl⟩
    · show result (Pg.bind (hashAt p (n + 1) a) (fun x => pure (.here (n := n + 1) (.hash x.toNat))) w) = _
      unfold Pg.bind
      rw [h1]
      exact congrArg (fun k => some (End.ret (.here (n := n + 1) (.hash k)), w')) (code_toNat p (n := n + 1) (E.2 a))
    · exact congrArg (fun y => End.ret (.here (n := n + 1) (.hash (hashOf p (n := n + 1) y)))) (ha.trans ha2.symm)

/-! ## The first state -/

theorem keeps_init : ∀ n : Nat, Keeps p (tower p n).init (Envs.none n)
  | 0 => .init
  | n + 1 => by
    refine ⟨{}, ⟨(Envs.none n).top, ?_, ⟨fun a => ?_, rfl, rfl, rfl⟩, fun a => ?_, fun a a' h hm => ?_, fun a h hm => ?_,
      fun _ _ => rfl⟩, .init⟩
    · show Keeps p _ ((Envs.none n).put _)
      rw [Envs.put_top]; exact keeps_init n
    · show _ = (St.blk (T := Nat) {} a).map _
      simp [St.blk]
    · show (cellsAt {} a).Nodup
      simp [cellsAt, St.blk]
    · change h ∈ cellsAt {} a at hm
      simp [cellsAt, St.blk] at hm
    · change h ∈ cellsAt {} a at hm
      simp [cellsAt, St.blk] at hm

/-! ## What can be seen -/

theorem keeps_holds (hp : p.Good) : ∀ {n : Nat} {w : Mem p n} {E : Envs n}, Keeps p w E → ∀ t, E.top t ≠ .dead →
    Holds p w t (E.top t)
  | 0, w, E, h, t, ht => by
    have := Reach.agrees hp.valid hp.phys h t
    cases he : Envs.top (n := 0) E t with
    | dead => exact absurd he ht
    | unspec => rw [show E t = .unspec from he] at this; exact this
    | val v => rw [show E t = .val v from he] at this; exact this
  | n + 1, w, E, h, t, ht => by
    obtain ⟨σ, ⟨env, hR⟩, hA⟩ := h
    have ha := hA.agrees (val_valid (level p n) (code p n) (left p n)) (val_phys (tower_good hp n E.1)) t
    cases he : Envs.top (n := n + 1) E t with
    | dead => exact absurd he ht
    | unspec =>
      rw [show E.2 t = .unspec from he] at ha
      obtain ⟨ob, ha⟩ := ha
      exact ⟨ob, (hR.like.obj t).symm.trans ha⟩
    | val v =>
      rw [show E.2 t = .val v from he] at ha
      refine ⟨?_, fun i y hy => ?_⟩
      · have hl := ha.1
        unfold Rca.length at hl ⊢
        obtain ⟨ob, s1, h1, h2⟩ := bind_inv hl
        obtain ⟨rfl, ho⟩ := getObj_inv h1
        rw [hR.like.obj] at ho
        rw [bind_ok (getObj_eq ho)]
        change Bdlib.Res.ok _ _ = _ at h2
        simp only [Bdlib.Res.ok.injEq, and_true] at h2
        show Bdlib.Res.ok ob.sublen _ = _
        rw [h2]; rfl
      · obtain ⟨hi, rfl⟩ := List.getElem?_eq_some_iff.mp hy
        have hrd := ha.2 i hi
        rw [List.getElem?_eq_getElem hi] at hrd
        unfold Rca.read at hrd
        obtain ⟨xs, s1, hx, hx'⟩ := bind_inv hrd
        obtain ⟨rfl, u, b, B, ob, _, _, hb, _, _, _, hcell, rfl, hm⟩ := cell_ok hR hx
        refine ⟨u, hcell, ?_⟩
        change Bdlib.Res.ok (some _) _ = _ at hx'
        simp only [Bdlib.Res.ok.injEq, Option.some.injEq, and_true] at hx'
        rw [← hx']
        have := keeps_holds hp hR.reach u (by rw [Envs.top_put]; exact hR.live hb hm)
        rwa [Envs.top_put] at this

theorem shown_less : ∀ {n : Nat} {w : Mem p n} {E : Envs n} {env : Env (Ty n)}, Shown p w (E.put env) →
    (∀ t, E.top t ≠ .dead → env t = E.top t) → Shown p w E
  | 0, _, _, env, h, he => fun t ht => by
    have := he t ht
    rw [← this]; exact h t (show env t ≠ _ by rw [this]; exact ht)
  | _ + 1, _, E, env, h, he => ⟨h.1, fun t ht => by
    have := he t ht
    rw [← show env t = E.2 t from this]; exact h.2 t (show env t ≠ _ by rw [this]; exact ht)⟩

theorem keeps_shown (hp : p.Good) : ∀ {n : Nat} {w : Mem p n} {E : Envs n}, Keeps p w E → Shown p w E
  | 0, _, _, h => keeps_holds hp h
  | n + 1, w, E, h => by
    refine ⟨?_, keeps_holds hp h⟩
    obtain ⟨σ, ⟨env, hR⟩, hA⟩ := h
    exact shown_less (keeps_shown hp hR.reach) fun t ht => (user_not_cell hR ht).2

theorem keeps_clean (hp : p.Good) : ∀ {n : Nat} {w : Mem p n} {E : Envs n}, Keeps p w E → E.Gone → Clean p w
  | 0, w, E, h, hd => ⟨fun o => by
      have := Reach.agrees hp.valid hp.phys h o
      rwa [show E o = .dead from hd o] at this, c02_no_leak hp.valid hp.phys h hd⟩
  | n + 1, w, E, h, hd => by
    obtain ⟨σ, ⟨env, hR⟩, hA⟩ := h
    have hv := val_valid (level p n) (code p n) (left p n)
    have hph := val_phys (θ := code p n) (tower_good hp n E.1)
    have hblk : ∀ b, w.arrs.blk b = none := by
      intro b
      have := c02_no_leak hv hph hA hd.2 b
      rw [hR.like.blk] at this
      cases hb : w.arrs.blk b with
      | none => rfl
      | some B => rw [hb] at this; cases this
    have henv : E.1.top = env := funext fun t => hR.rest t fun a hm => by
      unfold cellsAt at hm; rw [hblk a] at hm; cases hm
    subst henv
    have hk : Keeps p w.elts E.1 := by
      have := hR.reach
      change Keeps p w.elts (E.1.put E.1.top) at this
      rwa [Envs.put_top] at this
    refine ⟨keeps_clean hp hk hd.1, fun o => ?_, hblk⟩
    have := hA.agrees hv hph o
    rw [hd.2 o] at this
    exact (hR.like.obj o).symm.trans this

theorem keeps_sees (hp : p.Good) {n : Nat} {w : Mem p n} {E : Envs n} (h : Keeps p w E) : Sees p w E :=
  ⟨keeps_shown hp h, keeps_clean hp h⟩

theorem keeps_plays (hp : p.Good) {n : Nat} : ∀ (k : Nat) {w : Mem p n} {E : Envs n}, Keeps p w E → Plays p k w E
  | 0, _, _, h => keeps_sees hp h
  | k + 1, w, E, h => ⟨keeps_sees hp h, fun call hpre => by
      have hcut : ∀ F : Envs n, F.put (cut (fun _ => False) F.top) = F := fun F => by
        have : cut (fun _ => False) F.top = F.top := funext fun x => cut_out (by simp)
        rw [this, Envs.put_top]
      obtain ⟨out, w', E', h1, h2, _, h4⟩ := step hp call h (C := fun _ => False) (fun _ h => h.elim) (by rw [hcut]; exact hpre)
      rw [hcut] at h4
      exact ⟨out, w', E', h1, by rw [hcut] at h4; exact h4, keeps_plays hp k h2⟩⟩

end Bdlib.Deep
