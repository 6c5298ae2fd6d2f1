import Verif.Deep.Names
import Verif.Hash.Lemmas

/-!
# Reasoning about tables of objects of any depth
-/

namespace Bdlib.Deep
open Bdlib Bdlib.Spec Bdlib.Rca Bdlib.Hash

/-! ## Code that works on objects of one depth -/

variable {p : Params} {i j n : Nat}

/-- What code that works on objects of depth `i` does, in any program in which calls do what is specified. -/
def Works (p : Params) (i : Nat) {α : Type} (m : Pg (Mem p i) α) (A : Env (Ty i) → Prop) (Q : Env (Ty i) → α → Env (Ty i) → Prop) : Prop :=
  ∀ ⦃I : Mem p i → Envs i → Prop⦄ ⦃w : Mem p i⦄ ⦃E : Envs i⦄, Acts p I → I w E → A E.top →
    Ends m w (fun a w' => ∃ e', Q E.top a e' ∧ I w' (E.put e')) fun _ _ => False

theorem Works.lift {α : Type} : ∀ {i n : Nat} {m : Pg (Mem p i) α} {A : Env (Ty i) → Prop} {Q : Env (Ty i) → α → Env (Ty i) → Prop}
    (_ : Works p i m A Q) (q : At i n) {I : Mem p n → Envs n → Prop} {w : Mem p n} {E : Envs n}, Acts p I → I w E →
    A (q.env E) → Ends (q.lift m) w (fun a w' => ∃ e', Q (q.env E) a e' ∧ I w' (q.put E e')) fun _ _ => False
  | _, 0, _, _, _, h, .here, _, _, _, hI, hw, hA => h hI hw hA
  | _, _ + 1, _, _, _, h, .here, _, _, _, hI, hw, hA => h hI hw hA
  | _, n + 1, _, _, _, h, .up q, I, w, E, hI, hw, hA =>
    Ends.elts (c := level p n) (Works.lift h q (hI.below (World.arrs w) E.2) hw hA)

/-- In a program with a string, or an array, an operation of the class. -/
theorem works_arr {α : Type} {m : P (level p n) α} {f : α → Out (Slot (Ty n))} {op : Op (Slot (Ty n))}
    {A : Env (Ty (n + 1)) → Prop} {Q : Env (Ty (n + 1)) → α → Env (Ty (n + 1)) → Prop} (hpl : Plain op)
    (hrun : runArr (level p n) op = (do let x ← m; return f x : P (level p n) _))
    (hpre : ∀ sh e, A e → Spec.Pre (vals p n) sh e op)
    (hret : ∀ sh e a e', A e → Spec.Post (vals p n) sh e op (.ret (f a)) e' → Q e a e')
    (hexc : ∀ sh e x e', ¬ Spec.Post (vals p n) sh e op (.exc x) e') : Works p (n + 1) m A Q := by
  intro I w E hI hw hA
  obtain ⟨E1, E2⟩ := E
  refine (hI.code hw (call := .arr op) (m := m) (f := fun a => .here (n := n + 1) (f a)) (fun w => ?_) ⟨hpl, hpre _ _ hA⟩).mono ?_ ?_
  · show Pg.bind (runArr (level p n) op) _ w = _
    rw [hrun]
    exact bind_ret ..
  · rintro a w' ⟨⟨F1, F2⟩, ⟨o, h1, h2, h3⟩, h4⟩
    change F1 = E1 at h3
    subst h3
    have h2 : End.ret (Ans.here (n := n + 1) (f a)) = End.here (n := n + 1) o := h2
    cases o with
    | ret x => cases h2; exact ⟨F2, hret _ _ _ _ hA h1, h4⟩
    | exc x => cases h2
  · rintro e w' ⟨⟨F1, F2⟩, ⟨o, h1, h2, h3⟩, h4⟩
    have h2 : End.exc e = End.here (n := n + 1) o := h2
    cases o with
    | ret x => cases h2
    | exc x => exact hexc _ _ _ _ h1

theorem works_str {α : Type} {m : M UInt8 α} {f : α → Out UInt8} {op : Op UInt8}
    {A : Env UInt8 → Prop} {Q : Env UInt8 → α → Env UInt8 → Prop} (hrun : Rca.run p.str op = Rca.mapOut m f)
    (hpre : ∀ sh e, A e → Spec.Pre p.str sh e op)
    (hret : ∀ sh e a e', A e → Spec.Post p.str sh e op (.ret (f a)) e' → Q e a e')
    (hexc : ∀ sh e x e', ¬ Spec.Post p.str sh e op (.exc x) e') : Works p 0 (Pg.ofM m) A Q := by
  intro I w E hI hw hA
  refine (hI.codeM hw (op := op) hrun (hpre _ _ hA)).mono ?_ ?_
  · rintro a w' ⟨E', ⟨o, h1, h2⟩, h4⟩
    cases o with
    | ret x => cases h2; exact ⟨E', hret _ _ _ _ hA h1, h4⟩
    | exc x => cases h2
  · rintro e w' ⟨E', ⟨o, h1, h2⟩, h4⟩
    cases o with
    | ret x => cases h2
    | exc x => exact hexc _ _ _ _ h1

theorem works_new : ∀ i, Works p i (tower p i).new (fun _ => True) fun e o e' => e o = .dead ∧ e' = e.upd o (.val [])
  | 0 => works_str (op := .ctor) rfl (fun _ _ _ => trivial) (fun _ _ _ _ _ ⟨o, h1, h2, h3⟩ => by cases h2; exact ⟨h1, h3⟩)
      fun _ _ _ _ ⟨o, h1, h2, h3⟩ => nomatch h2
  | n + 1 => works_arr (op := .ctor) (f := .obj) trivial rfl (fun _ _ _ => trivial)
      (fun _ _ _ _ _ ⟨o, h1, h2, h3⟩ => by cases h2; exact ⟨h1, h3⟩) fun _ _ _ _ ⟨o, h1, h2, h3⟩ => nomatch h2

theorem works_newCopy (r : Nat) : ∀ i, Works p i ((tower p i).newCopy r) (fun e => e r ≠ .dead)
    fun e o e' => e o = .dead ∧ e' = e.upd o (e r)
  | 0 => works_str (op := .copyCtor r) rfl (fun _ _ h => h) (fun _ _ _ _ _ ⟨o, h1, h2, h3⟩ => by cases h2; exact ⟨h1, h3⟩)
      fun _ _ _ _ ⟨o, h1, h2, h3⟩ => nomatch h2
  | n + 1 => works_arr (op := .copyCtor r) (f := .obj) trivial rfl (fun _ _ h => h)
      (fun _ _ _ _ _ ⟨o, h1, h2, h3⟩ => by cases h2; exact ⟨h1, h3⟩) fun _ _ _ _ ⟨o, h1, h2, h3⟩ => nomatch h2

theorem dead_of {T : Type} {e : Env T} {r o : Nat} {y : Slot T} (hy : y ≠ .dead) (h : e.upd r y o = .dead) : e o = .dead := by
  by_cases ho : o = r
  · subst ho; rw [Env.upd_self] at h; exact absurd h hy
  · rwa [Env.upd_ne ho] at h

theorem works_newMove (r : Nat) : ∀ i, Works p i ((tower p i).newMove r) (fun e => e r ≠ .dead)
    fun e o e' => e o = .dead ∧ e' = (e.upd r (left p i)).upd o (e r)
  | 0 => works_str (op := .moveCtor r) rfl (fun _ _ h => h)
      (fun _ _ _ _ _ ⟨o, h1, h2, h3⟩ => by cases h2; exact ⟨dead_of (left_ne p 0) h1, h3⟩)
      fun _ _ _ _ ⟨o, h1, h2, h3⟩ => nomatch h2
  | n + 1 => works_arr (op := .moveCtor r) (f := .obj) trivial rfl (fun _ _ h => h)
      (fun _ _ _ _ _ ⟨o, h1, h2, h3⟩ => by cases h2; exact ⟨dead_of (left_ne p (n + 1)) h1, h3⟩) fun _ _ _ _ ⟨o, h1, h2, h3⟩ => nomatch h2

theorem works_assign (d s : Nat) : ∀ i, Works p i ((tower p i).assign d s) (fun e => e d ≠ .dead ∧ e s ≠ .dead)
    fun e _ e' => e' = e.upd d (e s)
  | 0 => works_str (op := .copyAssign d s) rfl (fun _ _ h => h) (fun _ _ _ _ _ h => h.2) fun _ _ _ _ h => nomatch h.1
  | n + 1 => works_arr (op := .copyAssign d s) (f := fun _ => .unit) trivial rfl (fun _ _ h => h) (fun _ _ _ _ _ h => h.2)
      fun _ _ _ _ h => nomatch h.1

theorem works_assignMove {d s : Nat} (hne : d ≠ s) : ∀ i, Works p i ((tower p i).assignMove d s) (fun e => e d ≠ .dead ∧ e s ≠ .dead)
    fun e _ e' => e' = (e.upd s (left p i)).upd d (e s)
  | 0 => works_str (op := .moveAssign d s) rfl (fun _ _ h => h) (fun _ _ _ _ _ h => h.2.trans (if_neg hne))
      fun _ _ _ _ h => nomatch h.1
  | n + 1 => works_arr (op := .moveAssign d s) (f := fun _ => .unit) trivial rfl (fun _ _ h => h)
      (fun _ _ _ _ _ h => h.2.trans (if_neg hne)) fun _ _ _ _ h => nomatch h.1

theorem works_delete (t : Nat) : ∀ i, Works p i ((tower p i).delete t) (fun e => e t ≠ .dead) fun e _ e' => e' = e.upd t .dead := by
  intro i I w E hI hw hA
  exact (hI.delete hw hA).mono (fun _ _ h => ⟨_, rfl, h⟩) fun _ _ h => h

theorem toNat_inj {a b : Bool} (h : a.toNat = b.toNat) : a = b := by cases a <;> cases b <;> first | rfl | cases h

theorem works_eq (a b : Nat) : ∀ i, Works p i (eqAt p i a b) (fun e => Known (e a) ∧ Known (e b))
    fun e r e' => (r = true ↔ e a = e b) ∧ e' = e
  | 0 => by
    intro I w E hI hw hA
    refine (hI.code hw (call := .strEq a b) (m := eqAt p 0 a b) (f := fun r => .here (n := 0) (.num r.toNat)) (fun w => rfl) hA).mono ?_ ?_
    · rintro r w' ⟨E', ⟨r', h1, h2, rfl⟩, h4⟩
      injection h1 with h1; injection h1 with _ h1; injection h1 with h1
      rw [toNat_inj h1]
      exact ⟨_, ⟨h2, rfl⟩, by rw [Envs.put_top]; exact h4⟩
    · rintro e w' ⟨E', ⟨r', h1, h2, rfl⟩, h4⟩
      cases h1
  | n + 1 => by
    intro I w E hI hw hA
    refine (hI.code hw (call := .eq a b) (m := eqAt p (n + 1) a b) (f := fun r => .here (n := n + 1) (.num r.toNat)) (fun w => rfl) hA).mono ?_ ?_
    · rintro r w' ⟨E', ⟨r', h1, h2, rfl⟩, h4⟩
      injection h1 with h1; injection h1 with _ h1; injection h1 with h1
      rw [toNat_inj h1]
      exact ⟨_, ⟨h2, rfl⟩, by rw [Envs.put_top]; exact h4⟩
    · rintro e w' ⟨E', ⟨r', h1, h2, rfl⟩, h4⟩
      cases h1

theorem works_hash (a : Nat) : ∀ i, Works p i (hashAt p i a) (fun e => Known (e a)) fun e r e' => r.toNat = hashOf p (e a) ∧ e' = e
  | 0 => by
    refine works_str (op := .hash a) rfl (fun _ _ h => h) (fun _ e r e' hA h => ?_) fun _ _ _ _ h => nomatch h.1
    obtain ⟨v, hv⟩ := hA
    obtain ⟨h1, h2⟩ := h
    injection h1 with h1; injection h1 with h1
    refine ⟨h1.trans ?_, h2⟩
    rw [hv]
    unfold Env.get; rw [hv]; rfl
  | n + 1 => by
    intro I w E hI hw hA
    refine (hI.code hw (call := .hash a) (m := hashAt p (n + 1) a) (f := fun r => .here (n := n + 1) (.hash r.toNat)) (fun w => rfl) hA).mono ?_ ?_
    · rintro r w' ⟨E', ⟨h1, rfl⟩, h4⟩
      injection h1 with h1; injection h1 with _ h1; injection h1 with h1
      exact ⟨_, ⟨h1, rfl⟩, by rw [Envs.put_top]; exact h4⟩
    · rintro e w' ⟨E', ⟨h1, rfl⟩, h4⟩
      cases h1

/-! ## All objects of a program -/

/-- The objects hold what `V` says. -/
def Stands (I : Mem p n → Envs n → Prop) (s : Mem p n) (V : All) : Prop := ∃ E, I s E ∧ E.all = V

/-- The code is defined and does not throw; what it gives, and what the objects hold after it. -/
def Goes (I : Mem p n → Envs n → Prop) {α : Type} (m : Pg (Mem p n) α) (s : Mem p n) (Q : α → All → Prop) : Prop :=
  Ends m s (fun a s' => ∃ V, Q a V ∧ Stands I s' V) fun _ _ => False

section
variable {I : Mem p n → Envs n → Prop} {s : Mem p n} {V : All} {α β : Type}

theorem Goes.pure {Q : α → All → Prop} {a : α} (hr : Stands I s V) (h : Q a V) : Goes I (Pure.pure a) s Q := ⟨V, h, hr⟩

theorem Goes.bind {m : Pg (Mem p n) α} {f : α → Pg (Mem p n) β} {Q' : α → All → Prop} {Q : β → All → Prop} (h : Goes I m s Q')
    (hf : ∀ a s' V', Stands I s' V' → Q' a V' → Goes I (f a) s' Q) : Goes I (m >>= f) s Q :=
  Ends.bind h fun a s' ⟨V', h1, h2⟩ => hf a s' V' h2 h1

theorem Goes.mono {m : Pg (Mem p n) α} {Q Q' : α → All → Prop} (h : Goes I m s Q') (hq : ∀ a V', Q' a V' → Q a V') : Goes I m s Q :=
  Ends.mono h (fun a _ ⟨V', h1, h2⟩ => ⟨V', hq a V' h1, h2⟩) fun _ _ h => h

/-- Code that works on objects of depth `i`. -/
theorem Works.goes (hI : Acts p I) {m : Pg (Mem p i) α} {A : Env (Ty i) → Prop} {Q : Env (Ty i) → α → Env (Ty i) → Prop}
    (h : Works p i m A Q) (q : At i n) (hr : Stands I s V) (hA : A fun o => V ⟨i, o⟩) {Q' : α → All → Prop}
    (hq : ∀ (E : Envs n) a e', E.all = V → Q (fun o => V ⟨i, o⟩) a e' → Q' a (q.put E e').all) : Goes I (q.lift m) s Q' := by
  obtain ⟨E, h1, rfl⟩ := hr
  have he : q.env E = fun o => E.all ⟨i, o⟩ := funext fun o => (all_at q E o).symm
  refine Ends.mono (h.lift q hI h1 (by rw [he]; exact hA)) ?_ fun _ _ h => h
  rintro a s' ⟨e', h2, h3⟩
  rw [he] at h2
  exact ⟨_, hq E a e' rfl h2, _, h3, rfl⟩

theorem put_same (q : At i n) {E : Envs n} (hE : E.all = V) : (q.put E fun o => V ⟨i, o⟩).all = V := by
  have : (fun o => V ⟨i, o⟩) = q.env E := by rw [← hE]; exact funext fun o => all_at q E o
  rw [this, q.put_env]; exact hE

theorem put_one (q : At i n) {E : Envs n} (hE : E.all = V) (o : Nat) (y : Slot (Ty i)) :
    (q.put E (Env.upd (fun o => V ⟨i, o⟩) o y)).all = V.upd ⟨i, o⟩ y := by
  have : (fun o => V ⟨i, o⟩) = q.env E := by rw [← hE]; exact funext fun o => all_at q E o
  rw [this, all_put, hE]

theorem put_two (q : At i n) {E : Envs n} (hE : E.all = V) (o r : Nat) (y z : Slot (Ty i)) :
    (q.put E (Env.upd (Env.upd (fun o => V ⟨i, o⟩) r z) o y)).all = (V.upd ⟨i, r⟩ z).upd ⟨i, o⟩ y := by
  have h1 := put_one q hE r z
  have h2 := put_one (V := V.upd ⟨i, r⟩ z) q h1 o y
  rw [q.put_put] at h2
  rw [← h2]
  congr 2
  have : (fun o => V ⟨i, o⟩) = q.env E := by rw [← hE]; exact funext fun o => all_at q E o
  congr 1
  funext x
  by_cases hx : x = r
  · subst hx; rw [Env.upd_self, All.upd_self]
  · rw [Env.upd_ne hx, All.upd_ne fun e => hx (by injection e)]

theorem goes_new (hI : Acts p I) (q : At i n) (hr : Stands I s V) :
    Goes I (q.lift (tower p i).new) s fun o V' => V ⟨i, o⟩ = .dead ∧ V' = V.upd ⟨i, o⟩ (.val []) :=
  (works_new i).goes hI q hr trivial fun E a e' hE ⟨h1, h2⟩ => ⟨h1, by rw [h2, put_one q hE]⟩

theorem goes_newCopy (hI : Acts p I) (q : At i n) (hr : Stands I s V) {r : Nat} (h : V ⟨i, r⟩ ≠ .dead) :
    Goes I (q.lift ((tower p i).newCopy r)) s fun o V' => V ⟨i, o⟩ = .dead ∧ V' = V.upd ⟨i, o⟩ (V ⟨i, r⟩) :=
  (works_newCopy r i).goes hI q hr h fun E a e' hE ⟨h1, h2⟩ => ⟨h1, by rw [h2, put_one q hE]⟩

theorem goes_newMove (hI : Acts p I) (q : At i n) (hr : Stands I s V) {r : Nat} (h : V ⟨i, r⟩ ≠ .dead) :
    Goes I (q.lift ((tower p i).newMove r)) s fun o V' => V ⟨i, o⟩ = .dead ∧ V' = (V.upd ⟨i, r⟩ (left p i)).upd ⟨i, o⟩ (V ⟨i, r⟩) :=
  (works_newMove r i).goes hI q hr h fun E a e' hE ⟨h1, h2⟩ => ⟨h1, by rw [h2, put_two q hE]⟩

theorem goes_assign (hI : Acts p I) (q : At i n) (hr : Stands I s V) {d r : Nat} (hd : V ⟨i, d⟩ ≠ .dead) (h : V ⟨i, r⟩ ≠ .dead) :
    Goes I (q.lift ((tower p i).assign d r)) s fun _ V' => V' = V.upd ⟨i, d⟩ (V ⟨i, r⟩) :=
  (works_assign d r i).goes hI q hr ⟨hd, h⟩ fun E a e' hE h2 => by rw [h2, put_one q hE]

theorem goes_assignMove (hI : Acts p I) (q : At i n) (hr : Stands I s V) {d r : Nat} (hd : V ⟨i, d⟩ ≠ .dead) (h : V ⟨i, r⟩ ≠ .dead)
    (hne : d ≠ r) : Goes I (q.lift ((tower p i).assignMove d r)) s fun _ V' => V' = (V.upd ⟨i, r⟩ (left p i)).upd ⟨i, d⟩ (V ⟨i, r⟩) :=
  (works_assignMove hne i).goes hI q hr ⟨hd, h⟩ fun E a e' hE h2 => by rw [h2, put_two q hE]

theorem goes_delete (hI : Acts p I) (q : At i n) (hr : Stands I s V) {t : Nat} (h : V ⟨i, t⟩ ≠ .dead) :
    Goes I (q.lift ((tower p i).delete t)) s fun _ V' => V' = V.upd ⟨i, t⟩ .dead :=
  (works_delete t i).goes hI q hr h fun E a e' hE h2 => by rw [h2, put_one q hE]

theorem goes_eq (hI : Acts p I) (q : At i n) (hr : Stands I s V) {a b : Nat} (ha : Known (V ⟨i, a⟩)) (hb : Known (V ⟨i, b⟩)) :
    Goes I (q.lift (eqAt p i a b)) s fun r V' => (r = true ↔ V ⟨i, a⟩ = V ⟨i, b⟩) ∧ V' = V :=
  (works_eq a b i).goes hI q hr ⟨ha, hb⟩ fun E a e' hE ⟨h1, h2⟩ => ⟨h1, by rw [h2, put_same q hE]⟩

theorem goes_hash (hI : Acts p I) (q : At i n) (hr : Stands I s V) {a : Nat} (ha : Known (V ⟨i, a⟩)) :
    Goes I (q.lift (hashAt p i a)) s fun r V' => r.toNat = hashOf p (V ⟨i, a⟩) ∧ V' = V :=
  (works_hash a i).goes hI q hr ha fun E a e' hE ⟨h1, h2⟩ => ⟨h1, by rw [h2, put_same q hE]⟩

end

/-! ## Objects and tables -/

/-- `Goes` with tables; what holds if the code throws. -/
def TGoes (I : Mem p n → Envs n → Prop) {α : Type} (m : Pg (Desk p n) α) (w : Tabs) (s : Mem p n) (Q : α → Tabs → All → Prop)
    (X : Exc → Tabs → All → Prop) : Prop :=
  Ends m ⟨w, s⟩ (fun a d => ∃ V, Q a d.tabs V ∧ Stands I d.mem V) fun e d => ∃ V, X e d.tabs V ∧ Stands I d.mem V

section
variable {I : Mem p n → Envs n → Prop} {w : Tabs} {s : Mem p n} {V : All} {α β : Type} {c : Shelf i j n}
variable {Q : β → Tabs → All → Prop} {X : Exc → Tabs → All → Prop}

theorem TGoes.pure {a : β} (hr : Stands I s V) (h : Q a w V) : TGoes I (Pure.pure a) w s Q X := ⟨V, h, hr⟩

theorem TGoes.bind {m : Pg (Desk p n) α} {f : α → Pg (Desk p n) β} {Q' : α → Tabs → All → Prop} (h : TGoes I m w s Q' X)
    (hf : ∀ a w' s' V', Stands I s' V' → Q' a w' V' → TGoes I (f a) w' s' Q X) : TGoes I (m >>= f) w s Q X :=
  Ends.bind h fun a d ⟨V', h1, h2⟩ => hf a d.tabs d.mem V' h2 h1

theorem TGoes.mono {m : Pg (Desk p n) β} {Q' : β → Tabs → All → Prop} {X' : Exc → Tabs → All → Prop} (h : TGoes I m w s Q' X')
    (hq : ∀ a w V, Q' a w V → Q a w V) (he : ∀ e w V, X' e w V → X e w V) : TGoes I m w s Q X :=
  Ends.mono h (fun _ _ ⟨V', h1, h2⟩ => ⟨V', hq _ _ _ h1, h2⟩) fun _ _ ⟨V', h1, h2⟩ => ⟨V', he _ _ _ h1, h2⟩

theorem TGoes.lift {m : Pg (Mem p n) β} {Q' : β → All → Prop} (h : Goes I m s Q') (hq : ∀ a V', Q' a V' → Q a w V') :
    TGoes I (onMem m) w s Q X := by
  unfold TGoes Ends onMem
  unfold Goes Ends at h
  dsimp only
  cases hm : m s with
  | ok a s' =>
    rw [hm] at h
    obtain ⟨V', h1, h2⟩ := h
    exact ⟨V', hq _ _ h1, h2⟩
  | throw e s' => rw [hm] at h; exact h.elim
  | ub => rw [hm] at h; exact h.elim

/-- A step on objects, then the rest. -/
theorem TGoes.obj {m : Pg (Mem p n) α} {f : α → Pg (Desk p n) β} {Q' : α → All → Prop} (h : Goes I m s Q')
    (hf : ∀ a s' V', Stands I s' V' → Q' a V' → TGoes I (f a) w s' Q X) : TGoes I (onMem m >>= f) w s Q X :=
  TGoes.bind (Q' := fun a w' V' => w' = w ∧ Q' a V') (TGoes.lift h fun _ _ h => ⟨rfl, h⟩) fun a w' s' V' hr h => by
    obtain ⟨rfl, h⟩ := h; exact hf a s' V' hr h

theorem TGoes.asks {Q : Unit → Tabs → All → Prop} (hr : Stands I s V) (hq : Q () { w with asked := w.asked + 1 } V)
    (he : (∃ r, c.fits r = false) → X .badAlloc { w with asked := w.asked + 1 } V) : TGoes I (ask c.fits) w s Q X := by
  unfold TGoes Ends ask
  cases h : c.fits w.asked with
  | true => exact ⟨V, hq, hr⟩
  | false => exact ⟨V, he ⟨_, h⟩, hr⟩

/-- Memory, then the rest. -/
theorem TGoes.ask {f : Unit → Pg (Desk p n) β} (hr : Stands I s V) (hf : TGoes I (f ()) { w with asked := w.asked + 1 } s Q X)
    (he : (∃ r, c.fits r = false) → X .badAlloc { w with asked := w.asked + 1 } V) : TGoes I (Deep.ask c.fits >>= f) w s Q X := by
  show Ends (Pg.bind (Deep.ask c.fits) f) _ _ _
  unfold Ends Pg.bind Deep.ask
  dsimp only
  cases h : c.fits w.asked with
  | true => exact hf
  | false => exact ⟨V, he ⟨_, h⟩, hr⟩

theorem TGoes.set {t : Nat} {u : UMap Nat Nat} {f : Unit → Pg (Desk p n) β} (h : TGoes I (f ()) { w with tab := setFn w.tab t u } s Q X) :
    TGoes I (setTab t u >>= f) w s Q X := h

theorem TGoes.sets {Q : Unit → Tabs → All → Prop} {t : Nat} {u : UMap Nat Nat} (hr : Stands I s V)
    (h : Q () { w with tab := setFn w.tab t u } V) : TGoes I (setTab t u) w s Q X := ⟨V, h, hr⟩

theorem TGoes.get {t : Nat} {f : UMap Nat Nat → Pg (Desk p n) β} (h : TGoes I (f (w.tab t)) w s Q X) : TGoes I (getTab t >>= f) w s Q X := h

theorem TGoes.onThrow {m : Pg (Desk p n) β} {d : Pg (Desk p n) Unit} {X' : Exc → Tabs → All → Prop} (h : TGoes I m w s Q X')
    (hd : ∀ e w' s' V', Stands I s' V' → X' e w' V' → TGoes I d w' s' (fun _ => X e) fun _ _ _ => False) : TGoes I (m.onThrow d) w s Q X :=
  Ends.onThrow h fun e d' ⟨V', h1, h2⟩ => Ends.mono (hd e d'.tabs d'.mem V' h2 h1) (fun _ _ h => h) fun _ _ ⟨_, h, _⟩ => h

end

end Bdlib.Deep
