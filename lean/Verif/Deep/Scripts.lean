import Verif.Deep.ScriptSpec
import Verif.Deep.Play

/-!
# Converting live objects to and from Tcl
-/

namespace Bdlib.Deep
open Bdlib Bdlib.Spec Bdlib.Rca Bdlib.Tcl
open Pg (undef)

variable {p : Params}

/-! ## How programs end -/

/-- The program is defined; what holds if it returns and if it throws. -/
def Ends {S α : Type} (m : Pg S α) (s : S) (Q : α → S → Prop) (X : Exc → S → Prop) : Prop :=
  match m s with
  | .ok a s' => Q a s'
  | .throw e s' => X e s'
  | .ub => False

section
variable {S α β : Type} {m : Pg S α} {s : S} {Q : α → S → Prop} {X : Exc → S → Prop}

theorem Ends.mono {Q' : α → S → Prop} {X' : Exc → S → Prop} (h : Ends m s Q X) (hQ : ∀ a s', Q a s' → Q' a s')
    (hX : ∀ e s', X e s' → X' e s') : Ends m s Q' X' := by
  unfold Ends at h ⊢
  cases hm : m s with
  | ok a s' => rw [hm] at h; exact hQ _ _ h
  | throw e s' => rw [hm] at h; exact hX _ _ h
  | ub => rw [hm] at h; exact h

theorem Ends.pure {a : α} (h : Q a s) : Ends (Pure.pure a : Pg S α) s Q X := h

theorem Ends.bind {f : α → Pg S β} {Q' : β → S → Prop} (h : Ends m s Q X) (hf : ∀ a s', Q a s' → Ends (f a) s' Q' X) :
    Ends (m >>= f) s Q' X := by
  show Ends (Pg.bind m f) s Q' X
  unfold Ends Pg.bind
  unfold Ends at h
  cases hm : m s with
  | ok a s' => rw [hm] at h; exact hf _ _ h
  | throw e s' => rw [hm] at h; exact h
  | ub => rw [hm] at h; exact h

theorem Ends.onThrow {d : Pg S Unit} {X' : Exc → S → Prop} (h : Ends m s Q X)
    (hd : ∀ e s', X e s' → Ends d s' (fun _ s'' => X' e s'') fun _ _ => False) : Ends (m.onThrow d) s Q X' := by
  unfold Ends Pg.onThrow
  unfold Ends at h
  cases hm : m s with
  | ok a s' => rw [hm] at h; exact h
  | throw e s' =>
    rw [hm] at h
    have := hd _ _ h
    unfold Ends at this
    dsimp only
    cases hs : d s' with
    | ok a s'' => rw [hs] at this; exact this
    | throw e s'' => rw [hs] at this; exact this.elim
    | ub => rw [hs] at this; exact this.elim
  | ub => rw [hm] at h; exact h

theorem Ends.elts {c : Conf} {m : Pg c.elt.Mem α} {w : World c} {Q : α → World c → Prop} {X : Exc → World c → Prop}
    (h : Ends m w.elts (fun a s => Q a ⟨s, w.arrs⟩) fun e s => X e ⟨s, w.arrs⟩) : Ends (elts m) w Q X := by
  unfold Ends Deep.elts
  unfold Ends at h
  cases hm : m w.elts with
  | ok a s' => rw [hm] at h; exact h
  | throw e s' => rw [hm] at h; exact h
  | ub => rw [hm] at h; exact h
end

/-! ## Calls -/

variable {n : Nat} {I : Mem p n → Envs n → Prop} {w : Mem p n} {E : Envs n}

theorem bind_ret {S α β γ : Type} (m : Pg S α) (g : α → β) (f : β → γ) (s : S) :
    Pg.bind (Pg.bind m fun a => Pg.pure (g a)) (fun b => Pg.pure (f b)) s = Pg.bind m (fun a => Pg.pure (f (g a))) s := by
  unfold Pg.bind
  cases m s <;> rfl

theorem Acts.code (hI : Acts p I) (h : I w E) {α : Type} {call : Call n} {m : Pg (Mem p n) α} {f : α → Ans n}
    (hrun : ∀ w, run p call w = Pg.bind m (fun x => Pg.pure (f x)) w) (hpre : Pre p (shares p w) E call) :
    Ends m w (fun a w' => ∃ E', Post p (shares p w) E call (.ret (f a)) E' ∧ I w' E')
      fun e w' => ∃ E', Post p (shares p w) E call (.exc e) E' ∧ I w' E' := by
  obtain ⟨out, w', E', h1, h2, h3⟩ := hI w E h call hpre
  rw [hrun] at h1
  unfold Pg.bind at h1
  unfold Ends
  cases hm : m w with
  | ok a s => rw [hm] at h1; cases h1; exact ⟨E', h2, h3⟩
  | throw e s => rw [hm] at h1; cases h1; exact ⟨E', h2, h3⟩
  | ub => rw [hm] at h1; cases h1

/-- The calls on the objects below, with the arrays as they are. -/
theorem Acts.below {I : Mem p (n + 1) → Envs (n + 1) → Prop} (hI : Acts p I) (a : St Nat) (e : Env (Slot (Ty n))) :
    Acts p (n := n) fun m F => I (⟨m, a⟩ : World (level p n)) (F, e) := by
  intro m F h call hpre
  obtain ⟨out, w', E', h1, ⟨o, h2, rfl, h3⟩, h4⟩ := hI _ _ h (.inner call) hpre
  obtain ⟨F', e'⟩ := E'
  change e' = e at h3
  subst h3
  change result (Pg.bind (elts (c := level p n) (run p call)) _ _) = _ at h1
  unfold Pg.bind elts at h1
  dsimp only at h1
  cases hm : run p call m with
  | ok x s =>
    rw [hm] at h1
    cases o with
    | ret y => cases h1; exact ⟨_, s, F', rfl, h2, h4⟩
    | exc y => cases h1
  | throw x s =>
    rw [hm] at h1
    cases o with
    | ret y => cases h1
    | exc y => cases h1; exact ⟨_, s, F', rfl, h2, h4⟩
  | ub => rw [hm] at h1; cases h1

theorem ofM_mapOut {T α : Type} (m : M T α) (f : α → Out T) (s : St T) :
    Pg.ofM (Rca.mapOut m f) s = Pg.bind (Pg.ofM m) (fun a => Pg.pure (f a)) s := by
  unfold Pg.ofM Pg.bind
  have h : Rca.mapOut m f s = match m s with
    | .ok a s' => .ok (f a) s'
    | .throw e s' => .throw e s'
    | .ub => .ub := rfl
  rw [h]
  dsimp only
  cases m s <;> rfl

theorem Acts.codeM {I : Mem p 0 → Envs 0 → Prop} {w : Mem p 0} {E : Envs 0} (hI : Acts p I) (h : I w E) {α : Type} {op : Op UInt8}
    {m : M UInt8 α} {f : α → Out UInt8} (hrun : Rca.run p.str op = Rca.mapOut m f) (hpre : Pre p (shares p w) E (.str op)) :
    Ends (Pg.ofM m) w (fun a w' => ∃ E', Post p (shares p w) E (.str op) (.ret (.here (n := 0) (f a))) E' ∧ I w' E')
      fun e w' => ∃ E', Post p (shares p w) E (.str op) (.exc e) E' ∧ I w' E' := by
  have := hI.code h (call := .str op) (m := Pg.ofM (Rca.run p.str op)) (f := .here (n := 0)) (fun _ => rfl) hpre
  unfold Ends at this ⊢
  rw [hrun, show Pg.ofM (Rca.mapOut m f) w = _ from ofM_mapOut m f w] at this
  unfold Pg.bind at this
  cases hm : Pg.ofM m w with
  | ok a s => rw [hm] at this; exact this
  | throw e s => rw [hm] at this; exact this
  | ub => rw [hm] at this; exact this

theorem Acts.delete : ∀ {n : Nat} {I : Mem p n → Envs n → Prop} {w : Mem p n} {E : Envs n} (_ : Acts p I) (_ : I w E) {t : Nat}
    (_ : E.top t ≠ .dead), Ends ((tower p n).delete t) w (fun _ w' => I w' (E.upd t .dead)) fun _ _ => False
  | 0, I, w, E, hI, h, t, ht => by
    refine (hI.codeM h (op := .destroy t) rfl ht).mono ?_ ?_
    · rintro _ w' ⟨E', ⟨o, ⟨_, h2⟩, _⟩, h3⟩
      rw [h2] at h3; exact h3
    · rintro e w' ⟨E', ⟨o, ⟨rfl, _⟩, h2⟩, _⟩
      cases h2
  | n + 1, I, w, E, hI, h, t, ht => by
    obtain ⟨E1, E2⟩ := E
    have := hI.code h (call := .arr (.destroy t)) (m := (Deep.destroy (level p n) t : P (level p n) Unit))
      (f := fun _ => .here (n := n + 1) .unit) (fun w => bind_ret ..) ⟨trivial, ht⟩
    refine this.mono ?_ ?_
    · rintro _ w' ⟨⟨F1, F2⟩, ⟨o, ⟨_, h2⟩, _, h4⟩, h3⟩
      change F2 = _ at h2
      change F1 = _ at h4
      subst h2 h4
      exact h3
    · rintro e w' ⟨E', ⟨o, ⟨rfl, _⟩, h2, _⟩, _⟩
      cases h2

/-! ## From Tcl -/

theorem upd_twice (E : Envs n) (t : Nat) (y z : Slot (Ty n)) : (E.upd t y).upd t z = E.upd t z := by
  unfold Envs.upd
  rw [Envs.top_put, Envs.put_put]
  congr 1
  funext x
  by_cases hx : x = t
  · subst hx; rw [Env.upd_self, Env.upd_self]
  · rw [Env.upd_ne hx, Env.upd_ne hx, Env.upd_ne hx]

theorem upd_back {E : Envs n} {t : Nat} {y : Slot (Ty n)} (h : E.top t = y) : E.upd t y = E := by
  unfold Envs.upd
  have : E.top.upd t y = E.top := by
    funext x
    by_cases hx : x = t
    · subst hx; rw [Env.upd_self, h]
    · rw [Env.upd_ne hx]
  rw [this, Envs.put_top]

theorem top_upd (E : Envs n) (t : Nat) (y : Slot (Ty n)) : (E.upd t y).top t = y := by
  unfold Envs.upd; rw [Envs.top_put, Env.upd_self]

theorem env_back {T : Type} (e : Env T) (a : Nat) : e.upd a (e a) = e := by
  funext x
  by_cases hx : x = a
  · subst hx; rw [Env.upd_self]
  · rw [Env.upd_ne hx]

theorem env_twice {T : Type} (e : Env T) (a : Nat) (y z : Slot T) : (e.upd a y).upd a z = e.upd a z := by
  funext x
  by_cases hx : x = a
  · subst hx; rw [Env.upd_self, Env.upd_self]
  · rw [Env.upd_ne hx, Env.upd_ne hx, Env.upd_ne hx]

theorem known_ne : ∀ {n : Nat} {y : Slot (Ty n)}, Known y → y ≠ .dead
  | 0, _, ⟨_, h⟩ => by rw [h]; intro h; cases h
  | _ + 1, _, ⟨_, h, _⟩ => by rw [h]; intro h; cases h

theorem left_ne (p : Params) (n : Nat) : left p n ≠ .dead := by
  unfold left; split <;> intro h <;> cases h

theorem made_ne (C : Library) (n : Nat) (o : Tcl.Obj) : made C n o ≠ .dead := by
  cases n with
  | zero => intro h; cases h
  | succ n => unfold made; cases C.elements o <;> intro h <;> cases h

/-- The conversions to objects of depth `n`. -/
def Converts (p : Params) (C : Library) (n : Nat) : Prop :=
  ∀ ⦃I : Mem p n → Envs n → Prop⦄ ⦃w : Mem p n⦄ ⦃E : Envs n⦄, Acts p I → I w E → ∀ o,
    Ends (fromTcl p C n o) w (fun t w' => E.top t = .dead ∧ I w' (E.upd t (made C n o))) fun e w' => e = .badAlloc ∧ I w' E

theorem takeAll_ends {C : Library} (hn : Converts p C n) {I : Mem p (n + 1) → Envs (n + 1) → Prop} (hI : Acts p I) {a : Nat}
    {E1 : Envs n} : ∀ (os : List Tcl.Obj) {w : Mem p (n + 1)} {E2 : Env (Slot (Ty n))} {xs : List (Slot (Ty n))},
    I w (E1, E2) → E2 a = .val xs →
    Ends (takeAll (level p n) (fromTcl p C n) a os) w (fun _ w' => I w' (E1, E2.upd a (.val (xs ++ os.map (made C n)))))
      fun e w' => e = .badAlloc ∧ ∃ y, y ≠ .dead ∧ I w' (E1, E2.upd a y)
  | [], w, E2, xs, h, ha => by
    refine Ends.pure (S := World (level p n)) ?_
    rw [List.map_nil, List.append_nil, ← ha, env_back]
    exact h
  | o :: os, w, E2, xs, h, ha => by
    refine Ends.bind (S := World (level p n)) (Q := fun t w' => E1.top t = .dead ∧ I w' (E1.upd t (made C n o), E2)) ?_ ?_
    · refine Ends.elts ((hn (hI.below w.arrs E2) h o).mono (fun t s h => h) ?_)
      rintro e s ⟨rfl, h⟩
      exact ⟨rfl, .val xs, (by intro h; cases h), by rw [← ha, env_back]; exact h⟩
    rintro t w1 ⟨ht, h1⟩
    have hlive : (E1.upd t (made C n o)).top t ≠ .dead := by rw [top_upd]; exact made_ne C n o
    have hap := hI.code h1 (call := .appendMove a t) (m := (appendMove (level p n) a t : P (level p n) Unit))
      (f := fun _ => .here (n := n + 1) .unit) (fun w => rfl) ⟨⟨xs, ha⟩, hlive⟩
    have hget : E2.get a = xs := by unfold Env.get; rw [ha]
    refine Ends.bind (S := World (level p n))
      (Q := fun _ w' => I w' (E1.upd t (left p n), E2.upd a (.val (xs ++ [made C n o])))) ?_ ?_
    · refine Ends.onThrow (S := World (level p n)) (hap.mono ?_ (fun e s h => h)) ?_
      · rintro _ w2 ⟨⟨F1, F2⟩, ⟨o', h2, h3, h4⟩, h5⟩
        cases o' with
        | exc e => cases h3
        | ret x =>
          change F1 = Envs.upd (Envs.upd _ _ _) _ _ at h4
          rw [upd_twice] at h4
          rcases h2 with ⟨_, h2⟩ | ⟨h2, _⟩
          · change F2 = _ at h2
            rw [hget, top_upd] at h2
            subst h2 h4; exact h5
          · cases h2
      · rintro e w2 ⟨⟨F1, F2⟩, ⟨o', h2, h3, h4⟩, h5⟩
        cases o' with
        | ret x => cases h3
        | exc e =>
          cases h3
          change F1 = _ at h4
          subst h4
          rcases h2 with ⟨h2, _⟩ | ⟨h2, h6⟩
          · cases h2
          · cases h2
            refine Ends.elts ((Acts.delete (hI.below w2.arrs F2) h5 hlive).mono ?_ fun _ _ h => h)
            intro _ s h7
            rw [upd_twice, upd_back ht] at h7
            refine ⟨rfl, ?_⟩
            change F2 = ite _ _ _ at h6
            split at h6
            · exact ⟨.val [], (by intro h; cases h), by rw [← h6]; exact h7⟩
            · refine ⟨.val xs, (by intro h; cases h), ?_⟩
              change F2 = E2 at h6
              subst h6
              rw [← ha, env_back]; exact h7
    · intro _ w2 h2
      refine Ends.bind (S := World (level p n)) (Q := fun _ w' => I w' (E1, E2.upd a (.val (xs ++ [made C n o])))) ?_ ?_
      · refine Ends.elts ((Acts.delete (hI.below w2.arrs _) h2 ?_).mono ?_ fun _ _ h => h.elim)
        · rw [top_upd]; exact left_ne p n
        · intro _ s h7
          rw [upd_twice, upd_back ht] at h7
          exact h7
      · intro _ w3 h3
        refine (takeAll_ends hn hI os h3 (Env.upd_self ..)).mono ?_ ?_
        · intro _ w4 h4
          rw [env_twice, List.append_assoc] at h4
          exact h4
        · rintro e w4 ⟨rfl, y, hy, h4⟩
          rw [env_twice] at h4
          exact ⟨rfl, y, hy, h4⟩

theorem converts (hs : IsStr p.str) (C : Library) : ∀ n, Converts p C n
  | 0 => by
    intro I w E hI h o
    obtain ⟨z, hz⟩ := Option.isSome_iff_exists.mp hs
    have hrun : Rca.run p.str (.strCtor (C.text o)) = Rca.mapOut (Rca.strCtor p.str z (C.text o)) .obj := by
      simp only [Rca.run, hz]
    have hcode : fromTcl p C 0 o = Pg.ofM (Rca.strCtor p.str z (C.text o)) := by
      unfold fromTcl
      rw [hz]
    rw [hcode]
    refine (hI.codeM h hrun hs).mono ?_ ?_
    · rintro t w' ⟨E', ⟨o', h2, h3⟩, h4⟩
      rcases h2 with ⟨t', hd, rfl, h2⟩ | ⟨rfl, _⟩
      · cases h3
        exact ⟨hd, by rw [h2] at h4; exact h4⟩
      · cases h3
    · rintro e w' ⟨E', ⟨o', h2, h3⟩, h4⟩
      rcases h2 with ⟨t', hd, rfl, h2⟩ | ⟨rfl, h2⟩
      · cases h3
      · cases h3
        exact ⟨rfl, by rw [h2] at h4; exact h4⟩
  | n + 1 => by
    intro I w E hI h o
    obtain ⟨E1, E2⟩ := E
    unfold fromTcl made
    cases ho : C.elements o with
    | none =>
      refine (hI.code h (call := .arr .ctor) (m := (arrs Rca.ctor : P (level p n) Nat)) (f := fun a => .here (n := n + 1) (.obj a))
        (fun w => bind_ret (S := World (level p n)) (arrs Rca.ctor) Out.obj (Ans.here (n := n + 1)) w) ⟨trivial, trivial⟩).mono ?_ ?_
      · rintro a w' ⟨⟨F1, F2⟩, ⟨o', ⟨t, hd, rfl, h2⟩, h3, h4⟩, h5⟩
        cases h3
        change F1 = _ at h4
        change F2 = _ at h2
        subst h4 h2
        exact ⟨hd, h5⟩
      · rintro e w' ⟨⟨F1, F2⟩, ⟨o', ⟨t, hd, rfl, h2⟩, h3, h4⟩, h5⟩
        cases h3
    | some os =>
      dsimp only
      refine Ends.bind (S := World (level p n)) (Q := fun a w' => E2 a = .dead ∧ I w' (E1, E2.upd a (.val []))) ?_ ?_
      · refine (hI.code h (call := .arr (.sizeCtor os.length)) (m := (sizeCtor (level p n) os.length : P (level p n) Nat))
          (f := fun a => .here (n := n + 1) (.obj a)) (fun w => bind_ret ..) ⟨trivial, trivial⟩).mono ?_ ?_
        · rintro a w' ⟨⟨F1, F2⟩, ⟨o', h2, h3, h4⟩, h5⟩
          change F1 = _ at h4
          rcases h2 with ⟨t, hd, rfl, h2⟩ | ⟨rfl, _⟩
          · cases h3
            change F2 = _ at h2
            subst h4 h2
            exact ⟨hd, h5⟩
          · cases h3
        · rintro e w' ⟨⟨F1, F2⟩, ⟨o', h2, h3, h4⟩, h5⟩
          change F1 = _ at h4
          rcases h2 with ⟨t, hd, rfl, h2⟩ | ⟨rfl, h2⟩
          · cases h3
          · cases h3
            change F2 = _ at h2
            subst h4 h2
            exact ⟨rfl, h5⟩
      · rintro a w1 ⟨hd, h1⟩
        refine Ends.bind (S := World (level p n)) (Q := fun _ w' => I w' (E1, E2.upd a (.val (os.map (made C n))))) ?_ ?_
        · refine Ends.onThrow (S := World (level p n)) ((takeAll_ends (converts hs C n) hI os h1 (Env.upd_self ..)).mono ?_
            fun e s h => h) ?_
          · intro _ w2 h2
            rw [env_twice] at h2
            exact h2
          · rintro e w2 ⟨rfl, y, hy, h2⟩
            rw [env_twice] at h2
            refine (Acts.delete (n := n + 1) hI h2 (t := a) ?_).mono ?_ fun _ _ h => h
            · show E2.upd a y a ≠ _
              rw [Env.upd_self]; exact hy
            · intro _ w3 h3
              change I w3 (E1, (E2.upd a y).upd a .dead) at h3
              rw [env_twice, ← hd, env_back] at h3
              exact ⟨rfl, h3⟩
        · intro _ w2 h2
          exact Ends.pure (S := World (level p n)) ⟨hd, h2⟩

/-- The same in a program that has also objects of greater depth. -/
theorem converts_deeper (hs : IsStr p.str) (C : Library) (o : Tcl.Obj) : ∀ (d : Nat) {I : Mem p (n + d) → Envs (n + d) → Prop}
    {w : Mem p (n + d)} {E : Envs (n + d)}, Acts p I → I w E →
    Ends (deeper (fromTcl p C n o) d) w (fun t w' => E.topAt d t = .dead ∧ I w' (E.updAt d t (made C n o)))
      fun e w' => e = .badAlloc ∧ I w' E
  | 0, _, _, _, hI, h => converts hs C n hI h o
  | d + 1, I, w, E, hI, h =>
    Ends.elts (c := level p (n + d)) (converts_deeper hs C o d (hI.below (World.arrs w) E.2) h)

/-! ## To Tcl -/

theorem bytesFrom_ok {s : St UInt8} {t : Nat} {v : List UInt8} (h : ∀ i, i < v.length → Rca.read t i s = .ok v[i]? s) :
    ∀ (k i : Nat), i + k = v.length → bytesFrom t i k s = .ok (v.drop i) s
  | 0, i, hk => by
    rw [List.drop_eq_nil_of_le (by omega)]; rfl
  | k + 1, i, hk => by
    have hi : i < v.length := by omega
    have hr := h i hi
    have ih := bytesFrom_ok h k (i + 1) (by omega)
    show M.bind (Rca.read t i) _ s = _
    unfold M.bind
    rw [hr, List.getElem?_eq_getElem hi]
    show M.bind (bytesFrom t (i + 1) k) _ s = _
    unfold M.bind
    rw [ih, List.drop_eq_getElem_cons hi]
    rfl

theorem giveAll_ok {c : Conf} {conv : Nat → Pg c.elt.Mem (Option Tcl.Obj)} {w : World c} {a : Nat} {T : Type} {xs : List T}
    {f : T → Tcl.Obj}
    (h : ∀ i z, xs[i]? = some z → ∃ u, cell c a i w = .ok u w ∧ conv u w.elts = .ok (some (f z)) w.elts) :
    ∀ (k i : Nat), i + k = xs.length → giveAll c conv a i k w = .ok ((xs.drop i).map f) w
  | 0, i, hk => by
    rw [List.drop_eq_nil_of_le (by omega)]; rfl
  | k + 1, i, hk => by
    have hi : i < xs.length := by omega
    obtain ⟨u, hu, hc⟩ := h i _ (List.getElem?_eq_getElem hi)
    have ih := giveAll_ok h k (i + 1) (by omega)
    show Pg.bind (cell c a i) _ w = _
    unfold Pg.bind
    rw [hu]
    show Pg.bind (elts (conv u)) _ w = _
    unfold Pg.bind elts
    dsimp only
    rw [hc]
    show Pg.bind (giveAll c conv a (i + 1) k) _ w = _
    unfold Pg.bind
    rw [ih, List.drop_eq_getElem_cons hi]
    rfl

theorem holds_toTcl : ∀ {n : Nat} {w : Mem p n} {t : Nat} {y : Slot (Ty n)}, Holds p w t y → Known y → Short y →
    toTcl p n t w = .ok (some (valueOf y)) w
  | 0, w, t, y, h, hk, hshort => by
    obtain ⟨v, rfl⟩ := hk
    have h : Shows (T := UInt8) w t v := h
    have hshort : v.length < 2147483647 := hshort
    refine ofM_ok (s := w) ?_
    show M.bind (Rca.length t) _ w = _
    unfold M.bind
    rw [h.1]
    dsimp only
    rw [if_pos hshort]
    show M.bind (bytesFrom t 0 v.length) _ w = _
    unfold M.bind
    rw [bytesFrom_ok h.2 v.length 0 (by omega)]
    rfl
  | n + 1, w, t, y, h, hk, hshort => by
    obtain ⟨xs, rfl, hk⟩ := hk
    have h : Rca.length t (World.arrs w) = .ok (List.length xs) (World.arrs w) ∧
        ∀ i z, xs[i]? = some z → ∃ u, cell (level p n) t i w = .ok u w ∧ Holds p (World.elts w) u z := h
    have hshort : ∀ x ∈ xs, Short x := hshort
    show Pg.bind (arrs (c := level p n) (Rca.length t)) _ w = _
    unfold Pg.bind arrs
    rw [h.1]
    have hg : giveAll (level p n) (toTcl p n) t 0 xs.length w = .ok ((xs.drop 0).map valueOf) w :=
      giveAll_ok (c := level p n) (f := valueOf) (xs := xs) (fun i z hz => by
        obtain ⟨u, hu, hh⟩ := h.2 i z hz
        have hm := List.mem_of_getElem? hz
        exact ⟨u, hu, holds_toTcl hh (hk z hm) (hshort z hm)⟩) xs.length 0 (by omega)
    show Pg.bind (giveAll (level p n) (toTcl p n) t 0 xs.length) _ w = _
    unfold Pg.bind
    rw [show giveAll (level p n) (toTcl p n) t 0 xs.length w = _ from hg]
    rfl

/-! ## There and back -/

theorem made_valueOf (C : Library) : ∀ {n : Nat} {y : Slot (Ty n)}, Known y → made C n (valueOf y) = y
  | 0, y, hk => by
    obtain ⟨v, rfl⟩ := hk
    show (Slot.val (C.text (.str v)) : Slot UInt8) = _
    unfold Library.text; rfl
  | n + 1, y, hk => by
    obtain ⟨xs, rfl, hk⟩ := hk
    show (Slot.val (List.map (made C n) (List.map valueOf xs)) : Slot (Slot (Ty n))) = _
    congr 1
    rw [List.map_map]
    exact (List.map_congr_left fun x hx => made_valueOf C (hk x hx)).trans (List.map_id xs)

theorem texts_map (C : Library) : ∀ os, C.texts os = os.map C.text
  | [] => by simp [Library.texts]
  | o :: os => by rw [Library.texts, texts_map C os]; rfl

theorem made_text (C : Library) : ∀ {n : Nat} {y : Slot (Ty n)}, Known y → made C n (.str (C.text (valueOf y))) = y
  | 0, y, hk => by
    obtain ⟨v, rfl⟩ := hk
    show (Slot.val (C.text (.str (C.text (.str v)))) : Slot UInt8) = _
    unfold Library.text; unfold Library.text; rfl
  | n + 1, y, hk => by
    obtain ⟨xs, rfl, hk⟩ := hk
    have he : C.elements (.str (C.text (.list (List.map valueOf xs)))) =
        some ((List.map (C.text ∘ valueOf) xs).map .str) := by
      show Option.map _ (C.parseList (C.text (.str (C.text (.list (List.map valueOf xs)))))) = _
      rw [show C.text (.str (C.text (.list (List.map valueOf xs)))) = C.formatList (List.map (C.text ∘ valueOf) xs) by
        rw [Library.text, Library.text, texts_map, List.map_map], C.parse_format]
      rfl
    show made C (n + 1) (.str (C.text (.list (List.map valueOf xs)))) = _
    unfold made
    rw [he]
    show (Slot.val (List.map (made C n) (List.map .str (List.map (C.text ∘ valueOf) xs))) : Slot (Slot (Ty n))) = _
    congr 1
    rw [List.map_map, List.map_map]
    exact (List.map_congr_left fun x hx => made_text C (hk x hx)).trans (List.map_id xs)

end Bdlib.Deep
