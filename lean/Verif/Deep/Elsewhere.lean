import Verif.Deep.Names

/-!
# Which objects of a program a call may change

A call on objects of any depth changes no object that exists, except those it writes, and ends the life of no object, except
the one whose destructor it is (`Deep/Play.lean` has this for objects of the greatest depth).
-/

namespace Bdlib.Deep
open Bdlib Bdlib.Spec

/-- The objects a call may change: receivers, unless the call only looks at them, and arguments it moves from.  What a call on an
element writes may be the element itself, which is no object of the program. -/
def WritesTo : {n : Nat} → Call n → Name → Prop
  | _, .inner call, x => WritesTo call x
  | n + 1, .modify a _ f, x => x = ⟨n + 1, a⟩ ∨ ∃ t, x ≠ ⟨n, t⟩ ∧ WritesTo (f t) x
  | n + 1, .look _ _ f, x => ∃ t, x ≠ ⟨n, t⟩ ∧ WritesTo (f t) x
  | n + 1, .writeMove a _ h, x | n + 1, .appendMove a h, x | n + 1, .insertMove a _ h, x | n + 1, .replaceMove a _ h, x =>
      x = ⟨n + 1, a⟩ ∨ x = ⟨n, h⟩
  | n, call, x => ∃ t, x = ⟨n, t⟩ ∧ Writes call t

/-- The object whose destructor the call is. -/
def Destroys : {n : Nat} → Call n → Name → Prop
  | _, .inner call, x => Destroys call x
  | n + 1, .modify _ _ f, x | n + 1, .look _ _ f, x => ∃ t, x ≠ ⟨n, t⟩ ∧ Destroys (f t) x
  | n, call, x => ∃ t, x = ⟨n, t⟩ ∧ Kills call t

variable {p : Params} {n : Nat}

theorem all_top {n : Nat} (E : Envs n) (t : Nat) : E.all ⟨n, t⟩ = E.top t := by
  cases n with
  | zero => exact all_at .here E t
  | succ n => exact all_at .here E t

theorem all_inner (E : Envs (n + 1)) {x : Name} (h : x.depth ≠ n + 1) : E.all x = E.1.all x := by
  unfold Envs.all
  rw [show at? x.depth (n + 1) = (at? x.depth n).map .up from dif_neg h]
  cases at? x.depth n <;> rfl

theorem all_upd {n : Nat} (E : Envs n) (t : Nat) (y : Slot (Ty n)) : (E.upd t y).all = E.all.upd ⟨n, t⟩ y := by
  cases n with
  | zero => exact all_put .here E t y
  | succ n => exact all_put .here E t y

theorem eq_top {x : Name} (h : x.depth = n) : x = ⟨n, x.handle⟩ := by cases x; cases h; rfl

theorem copies_elsewhere {sh : Sh (n + 1)} {E E' : Envs (n + 1)} {op : Op (Slot (Ty n))} {out : End (n + 1)} {x : Name}
    (h : Copies p sh E op out E') (hd : x.depth ≠ n + 1) : E'.all x = E.all x := by
  obtain ⟨_, _, _, h3⟩ := h
  rw [all_inner _ hd, all_inner _ hd, h3]

theorem moves_elsewhere {sh : Sh (n + 1)} {E E' : Envs (n + 1)} {op : Op (Slot (Ty n))} {out : End (n + 1)} {x : Name} {t : Nat}
    (h : Moves p sh E t op out E') (hd : x.depth ≠ n + 1) (ht : x ≠ ⟨n, t⟩) : E'.all x = E.all x := by
  obtain ⟨o, _, _, h3⟩ := h
  rw [all_inner _ hd, all_inner _ hd, h3]
  cases o with
  | ret _ => dsimp only; rw [all_upd, All.upd_ne ht]
  | exc _ => rfl

theorem hands_elsewhere {sh : Sh (n + 1)} {E E' : Envs (n + 1)} {op : Op (Slot (Ty n))} {out : End (n + 1)} {x : Name}
    (h : Hands p sh E op out E') (hd : x.depth ≠ n + 1) (hx : E.all x ≠ .dead) : E'.all x = E.all x := by
  rw [all_inner _ hd] at hx
  rw [all_inner _ hd, all_inner _ hd]
  rcases h with ⟨t, y, h1, _, _, h3⟩ | ⟨_, _, _, h3⟩
  · rw [h3, all_upd, All.upd_ne]
    rintro rfl
    rw [all_top] at hx
    exact hx h1
  · rw [h3]

/-- The element is no object of the program. -/
theorem element_elsewhere {E F : Envs n} {t : Nat} {y : Slot (Ty n)} {x : Name} (ht : E.top t = .dead) (hx : E.all x ≠ .dead) :
    x ≠ ⟨n, t⟩ ∧ (E.upd t y).all x = E.all x ∧ (F.upd t .dead).all x = F.all x := by
  have h : x ≠ ⟨n, t⟩ := by rintro rfl; rw [all_top] at hx; exact hx ht
  exact ⟨h, by rw [all_upd, All.upd_ne h], by rw [all_upd, All.upd_ne h]⟩

/-- A call leaves the objects alone that it does not write. -/
theorem post_elsewhere {n : Nat} {sh : Sh n} {E E' : Envs n} {call : Call n} {out : End n} {x : Name}
    (hk : ¬ WritesTo call x) (h : Post p sh E call out E') (hx : E.all x ≠ .dead) : E'.all x = E.all x := by
  induction call generalizing x with
  | inner call ih =>
    rename_i m
    obtain ⟨o, h1, _, h3⟩ := h
    by_cases hd : x.depth = m + 1
    · rw [eq_top hd, all_top, all_top]; show E'.2 _ = E.2 _; rw [h3]
    · rw [all_inner _ hd] at hx ⊢; rw [all_inner _ hd]; exact ih hk h1 hx
  | str op =>
    by_cases hd : x.depth = 0
    · rw [eq_top hd] at hk hx ⊢
      rw [all_top] at hx ⊢
      rw [all_top]
      exact post_spares (fun hw => hk ⟨_, rfl, hw⟩) h hx
    · refine absurd ?_ hx
      unfold Envs.all
      rw [show at? x.depth 0 = none from dif_neg hd]
  | strEq a b =>
    obtain ⟨_, _, _, rfl⟩ := h
    rfl
  | modify a i f ih =>
    rename_i m
    have hs := post_spares (t := x.handle) (n := m + 1) (call := .modify a i f) (E := E) (E' := E') (p := p) (out := out) (sh := sh)
    by_cases hd : x.depth = m + 1
    · rw [eq_top hd] at hk hx ⊢
      rw [all_top] at hx ⊢
      rw [all_top]
      exact hs (fun hw => hk (Or.inl (congrArg _ hw))) h hx
    · rw [all_inner _ hd] at hx ⊢
      rw [all_inner _ hd]
      rcases h with ⟨_, h, _⟩ | ⟨t, y, s, o, F, h1, h2, h3, h4, h5, h6⟩
      · rw [h]
      · obtain ⟨g1, g2, g3⟩ := element_elsewhere (F := F) (y := y) h1 hx
        rw [h5, g3, ih t (fun hw => hk (Or.inr ⟨t, g1, hw⟩)) h3 (by rw [g2]; exact hx), g2]
  | look a i f ih =>
    rename_i m
    obtain ⟨t, y, s, o, F, h1, h2, h3, h4, h5, h6⟩ := h
    by_cases hd : x.depth = m + 1
    · rw [eq_top hd, all_top, all_top]; show E'.2 _ = E.2 _; rw [h6]
    · rw [all_inner _ hd] at hx ⊢
      rw [all_inner _ hd]
      obtain ⟨g1, g2, g3⟩ := element_elsewhere (F := F) (y := y) h1 hx
      rw [h5, g3, ih t (fun hw => hk ⟨t, g1, hw⟩) h3 (by rw [g2]; exact hx), g2]
  | writeMove a i g | appendMove a g | insertMove a i g | replaceMove a i g =>
    rename_i m
    by_cases hd : x.depth = m + 1
    · have hw : x.handle ≠ a := fun e => hk (Or.inl ((eq_top hd).trans (congrArg _ e)))
      rw [eq_top hd] at hx ⊢
      rw [all_top] at hx ⊢
      rw [all_top]
      refine post_spares ?_ h hx
      exact hw
    · exact moves_elsewhere h hd fun e => hk (Or.inr e)
  | get a i | getAt a i | shift a | pop a =>
    rename_i m
    by_cases hd : x.depth = m + 1
    · rw [eq_top hd] at hk hx ⊢
      rw [all_top] at hx ⊢
      rw [all_top]
      exact post_spares (fun hw => hk ⟨_, rfl, hw⟩) h hx
    · exact hands_elsewhere h hd hx
  | arr op | listCtor l | assignList a l | write a i g | append a g | insert a i g | replace a i g =>
    rename_i m
    by_cases hd : x.depth = m + 1
    · rw [eq_top hd] at hk hx ⊢
      rw [all_top] at hx ⊢
      rw [all_top]
      exact post_spares (fun hw => hk ⟨_, rfl, hw⟩) h hx
    · exact copies_elsewhere h hd
  | writeOf a j b i | appendOf a b i | insertOf a pos b i | replaceOf a pos b i =>
    rename_i m
    by_cases hd : x.depth = m + 1
    · rw [eq_top hd] at hk hx ⊢
      rw [all_top] at hx ⊢
      rw [all_top]
      exact post_spares (fun hw => hk ⟨_, rfl, hw⟩) h hx
    · obtain ⟨_, _, h⟩ := h
      exact copies_elsewhere h hd
  | algo rev back a f =>
    rename_i m
    by_cases hd : x.depth = m + 1
    · rw [eq_top hd] at hk hx ⊢
      rw [all_top] at hx ⊢
      rw [all_top]
      exact post_spares (fun hw => hk ⟨_, rfl, hw⟩) h hx
    · rw [all_inner _ hd] at hx ⊢
      rw [all_inner _ hd]
      rcases h with ⟨_, h, _⟩ | ⟨_, h, _⟩ <;> rw [h]
  | eq a b | equals a b k =>
    obtain ⟨_, _, _, rfl⟩ := h
    rfl
  | find a g | rfind a g =>
    obtain ⟨_, _, _, rfl⟩ := h
    rfl
  | findFrom a g pos =>
    unfold Post at h
    split at h
    · obtain ⟨_, _, _, rfl⟩ := h
      rfl
    · obtain ⟨_, rfl⟩ := h
      rfl
  | hash a =>
    obtain ⟨_, rfl⟩ := h
    rfl

/-- Only its destructor ends the life of an object. -/
theorem post_survives {n : Nat} {sh : Sh n} {E E' : Envs n} {call : Call n} {out : End n} {x : Name} (hpre : Pre p sh E call)
    (hk : ¬ Destroys call x) (h : Post p sh E call out E') (hx : E.all x ≠ .dead) : E'.all x ≠ .dead := by
  induction call generalizing x with
  | inner call ih =>
    rename_i m
    obtain ⟨o, h1, _, h3⟩ := h
    by_cases hd : x.depth = m + 1
    · rw [eq_top hd, all_top] at hx ⊢; show E'.2 _ ≠ _; rw [h3]; exact hx
    · rw [all_inner _ hd] at hx ⊢; exact ih hpre hk h1 hx
  | modify a i f ih =>
    rename_i m
    by_cases hd : x.depth = m + 1
    · rw [eq_top hd, all_top] at hx ⊢
      exact post_keeps hpre id h hx
    · rw [all_inner _ hd] at hx ⊢
      rcases h with ⟨_, h, _⟩ | ⟨t, y, s, o, F, h1, h2, h3, h4, h5, h6⟩
      · rw [h]; exact hx
      · obtain ⟨g1, g2, g3⟩ := element_elsewhere (F := F) (y := y) h1 hx
        rw [h5, g3]
        exact ih t (hpre.2.2 t y s h1 h2).1 (fun hw => hk ⟨t, g1, hw⟩) h3 (by rw [g2]; exact hx)
  | look a i f ih =>
    rename_i m
    by_cases hd : x.depth = m + 1
    · rw [eq_top hd, all_top] at hx ⊢
      exact post_keeps hpre id h hx
    · obtain ⟨t, y, s, o, F, h1, h2, h3, h4, h5, h6⟩ := h
      rw [all_inner _ hd] at hx ⊢
      obtain ⟨g1, g2, g3⟩ := element_elsewhere (F := F) (y := y) h1 hx
      rw [h5, g3]
      exact ih t (hpre.2.2 t y s h1 h2).1 (fun hw => hk ⟨t, g1, hw⟩) h3 (by rw [g2]; exact hx)
  | str op =>
    by_cases hd : x.depth = 0
    · rw [eq_top hd] at hk hx ⊢
      rw [all_top] at hx ⊢
      exact post_keeps hpre (fun hw => hk ⟨_, rfl, hw⟩) h hx
    · refine absurd ?_ hx
      unfold Envs.all
      rw [show at? x.depth 0 = none from dif_neg hd]
  | strEq a b =>
    obtain ⟨_, _, _, rfl⟩ := h
    exact hx
  | writeMove a i g | appendMove a g | insertMove a i g | replaceMove a i g =>
    rename_i m
    by_cases hd : x.depth = m + 1
    · rw [eq_top hd, all_top] at hx ⊢
      exact post_keeps hpre id h hx
    · by_cases hg : x = ⟨m, g⟩
      · obtain ⟨o, _, _, h3⟩ := h
        rw [all_inner _ hd] at hx ⊢
        rw [h3]
        cases o with
        | ret _ => dsimp only; subst hg; rw [all_upd, All.upd_self]; exact left_ne p m
        | exc _ => exact hx
      · rw [moves_elsewhere h hd hg]; exact hx
  | get a i | getAt a i | shift a | pop a =>
    rename_i m
    by_cases hd : x.depth = m + 1
    · rw [eq_top hd, all_top] at hx ⊢
      exact post_keeps hpre id h hx
    · rw [hands_elsewhere h hd hx]; exact hx
  | arr op | listCtor l | assignList a l | write a i g | append a g | insert a i g | replace a i g =>
    rename_i m
    by_cases hd : x.depth = m + 1
    · rw [eq_top hd] at hk hx ⊢
      rw [all_top] at hx ⊢
      exact post_keeps hpre (fun hw => hk ⟨_, rfl, hw⟩) h hx
    · rw [copies_elsewhere h hd]; exact hx
  | writeOf a j b i | appendOf a b i | insertOf a pos b i | replaceOf a pos b i =>
    rename_i m
    by_cases hd : x.depth = m + 1
    · rw [eq_top hd] at hk hx ⊢
      rw [all_top] at hx ⊢
      exact post_keeps hpre (fun hw => hk ⟨_, rfl, hw⟩) h hx
    · obtain ⟨_, _, h⟩ := h
      rw [copies_elsewhere h hd]; exact hx
  | algo rev back a f =>
    rename_i m
    by_cases hd : x.depth = m + 1
    · rw [eq_top hd, all_top] at hx ⊢
      exact post_keeps hpre id h hx
    · rw [all_inner _ hd] at hx ⊢
      rcases h with ⟨_, h, _⟩ | ⟨_, h, _⟩ <;> rw [h] <;> exact hx
  | eq a b | equals a b k =>
    obtain ⟨_, _, _, rfl⟩ := h
    exact hx
  | find a g | rfind a g =>
    obtain ⟨_, _, _, rfl⟩ := h
    exact hx
  | findFrom a g pos =>
    unfold Post at h
    split at h
    · obtain ⟨_, _, _, rfl⟩ := h
      exact hx
    · obtain ⟨_, rfl⟩ := h
      exact hx
  | hash a =>
    obtain ⟨_, rfl⟩ := h
    exact hx

end Bdlib.Deep
