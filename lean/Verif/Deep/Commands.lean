import Verif.Deep.CommandSpec
import Verif.Deep.Tables

/-!
# Reasoning about commands
-/

namespace Bdlib.Deep
open Bdlib Bdlib.Spec Bdlib.Rca Bdlib.Tcl Bdlib.Hash
open Pg (undef)

variable {p : Params} {i n : Nat}

/-! ## Code that may throw -/

/-- The code is defined; what it gives and what it throws, and what the objects hold after it. -/
def Runs (I : Mem p n → Envs n → Prop) {α : Type} (m : Pg (Mem p n) α) (s : Mem p n) (Q : α → All → Prop) (X : Exc → All → Prop) : Prop :=
  Ends m s (fun a s' => ∃ V, Q a V ∧ Stands I s' V) fun e s' => ∃ V, X e V ∧ Stands I s' V

section
variable {I : Mem p n → Envs n → Prop} {s : Mem p n} {V : All} {α β : Type} {Q : β → All → Prop} {X : Exc → All → Prop}

theorem Runs.pure {a : β} (hr : Stands I s V) (h : Q a V) : Runs I (Pure.pure a) s Q X := ⟨V, h, hr⟩

theorem Runs.bind {m : Pg (Mem p n) α} {f : α → Pg (Mem p n) β} {Q' : α → All → Prop} (h : Runs I m s Q' X)
    (hf : ∀ a s' V', Stands I s' V' → Q' a V' → Runs I (f a) s' Q X) : Runs I (m >>= f) s Q X :=
  Ends.bind h fun a s' ⟨V', h1, h2⟩ => hf a s' V' h2 h1

theorem Runs.mono {m : Pg (Mem p n) β} {Q' : β → All → Prop} {X' : Exc → All → Prop} (h : Runs I m s Q' X')
    (hq : ∀ a V, Q' a V → Q a V) (hx : ∀ e V, X' e V → X e V) : Runs I m s Q X :=
  Ends.mono h (fun _ _ ⟨V', h1, h2⟩ => ⟨V', hq _ _ h1, h2⟩) fun _ _ ⟨V', h1, h2⟩ => ⟨V', hx _ _ h1, h2⟩

theorem Goes.runs {m : Pg (Mem p n) β} (h : Goes I m s Q) : Runs I m s Q X := Ends.mono h (fun _ _ h => h) fun _ _ h => h.elim

theorem Runs.onThrow {m : Pg (Mem p n) β} {d : Pg (Mem p n) Unit} {X' : Exc → All → Prop} (h : Runs I m s Q X')
    (hd : ∀ e s' V', Stands I s' V' → X' e V' → Goes I d s' fun _ V => X e V) : Runs I (m.onThrow d) s Q X :=
  Ends.onThrow h fun e s' ⟨V', h1, h2⟩ => Ends.mono (hd e s' V' h2 h1) (fun _ _ h => h) fun _ _ h => h

theorem Runs.exec (hI : Acts p I) : ∀ (b : Body n) {s : Mem p n} {E : Envs n} {Q : Nat → All → Prop}, I s E → b.Meets p E Q X →
    Runs I (b.exec p) s Q X
  | .ret _, _, _, _, hs, h => ⟨_, h, _, hs, rfl⟩
  | .raise _, _, _, _, hs, h => ⟨_, h, _, hs, rfl⟩
  | .call c k, s, E, Q, hs, h => by
    obtain ⟨out, s', E', h1, h2, h3⟩ := hI s E hs c (h _).1
    have := Runs.exec hI (k out) h3 ((h _).2 out E' h2)
    unfold Runs Ends at this ⊢
    unfold Body.exec
    rw [h1]
    exact this
end

/-! ## Conversions at any depth -/

theorem converts_at (hs : IsStr p.str) (C : Library) (o : Tcl.Obj) : ∀ {i n : Nat} (q : At i n) {I : Mem p n → Envs n → Prop} {w : Mem p n}
    {E : Envs n}, Acts p I → I w E → Ends (q.lift (fromTcl p C i o)) w
      (fun t w' => q.env E t = .dead ∧ I w' (q.put E ((q.env E).upd t (made C i o)))) fun e w' => e = .badAlloc ∧ I w' E
  | _, 0, .here, _, _, _, hI, h => converts hs C 0 hI h o
  | _, n + 1, .here, _, _, _, hI, h => converts hs C (n + 1) hI h o
  | _, n + 1, .up q, I, w, E, hI, h => Ends.elts (c := level p n) (converts_at hs C o q (hI.below (World.arrs w) E.2) h)

section
variable {I : Mem p n → Envs n → Prop} {s : Mem p n} {V : All}

theorem runs_fromTcl (hs : IsStr p.str) (C : Library) (o : Tcl.Obj) (hI : Acts p I) (q : At i n) (hr : Stands I s V) :
    Runs I (q.lift (fromTcl p C i o)) s (fun t V' => V ⟨i, t⟩ = .dead ∧ V' = V.upd ⟨i, t⟩ (made C i o))
      fun e V' => e = .badAlloc ∧ V' = V := by
  obtain ⟨E, h1, rfl⟩ := hr
  refine (converts_at hs C o q hI h1).mono ?_ ?_
  · rintro t w' ⟨h2, h3⟩
    exact ⟨_, ⟨by rw [all_at q]; exact h2, all_put q E t _⟩, _, h3, rfl⟩
  · rintro e w' ⟨h2, h3⟩
    exact ⟨_, ⟨h2, rfl⟩, _, h3, rfl⟩

theorem shown_toTcl : ∀ {i n : Nat} (q : At i n) {w : Mem p n} {E : Envs n} {t : Nat}, Shown p w E → Known (q.env E t) → Short (q.env E t) →
    q.lift (toTcl p i t) w = .ok (some (valueOf (q.env E t))) w
  | _, 0, .here, _, _, _, h, hk, hsh => holds_toTcl (h _ (known_ne hk)) hk hsh
  | _, n + 1, .here, _, _, _, h, hk, hsh => holds_toTcl (h.2 _ (known_ne hk)) hk hsh
  | _, n + 1, .up q, w, E, t, h, hk, hsh => by
    show elts (c := level p n) (q.lift (toTcl p _ t)) w = _
    unfold elts
    rw [shown_toTcl q h.1 hk hsh]
    rfl

theorem goes_toTcl (hS : ∀ w E, I w E → Sees p w E) (q : At i n) (hr : Stands I s V) {t : Nat} (hk : Known (V ⟨i, t⟩)) (hsh : Short (V ⟨i, t⟩)) :
    Goes I (q.lift (toTcl p i t)) s fun o V' => o = some (valueOf (V ⟨i, t⟩)) ∧ V' = V := by
  obtain ⟨E, h1, rfl⟩ := hr
  rw [all_at q] at hk hsh ⊢
  unfold Goes Ends
  rw [shown_toTcl q (hS _ _ h1).1 hk hsh]
  exact ⟨_, ⟨rfl, rfl⟩, E, h1, rfl⟩
end

/-! ## Objects that are made and destroyed -/

/-- Without the objects `xs`. -/
def strip : List Name → All → All
  | [], V => V
  | x :: xs, V => strip xs (V.upd x .dead)

theorem strip_in : ∀ {xs : List Name} {V : All} {x : Name}, x ∈ xs → strip xs V x = .dead := by
  have keep : ∀ (xs : List Name) (V : All) (x : Name), V x = .dead → strip xs V x = .dead := by
    intro xs
    induction xs with
    | nil => intro V x h; exact h
    | cons y ys ih =>
      intro V x h
      refine ih _ _ ?_
      by_cases hx : x = y
      · subst hx; exact All.upd_self
      · rw [All.upd_ne hx]; exact h
  intro xs
  induction xs with
  | nil => intro V x h; cases h
  | cons y ys ih =>
    intro V x h
    rcases List.mem_cons.mp h with rfl | h
    · exact keep ys (V.upd x .dead) x All.upd_self
    · exact ih (V := V.upd y .dead) h

theorem strip_out : ∀ {xs : List Name} {V : All} {x : Name}, x ∉ xs → strip xs V x = V x := by
  intro xs
  induction xs with
  | nil => intro V x _; rfl
  | cons y ys ih =>
    intro V x h
    show strip ys _ x = _
    rw [ih (fun hx => h (List.mem_cons_of_mem _ hx)), All.upd_ne (fun e => h (by rw [e]; exact List.mem_cons_self ..))]

/-- The object of position `i`. -/
def nameAt (ks : List (Kind n)) (h : Nat → Nat) (i : Nat) : Name := ⟨(ks[i]?.map Kind.depth).getD 0, h i⟩

theorem nameAt_eq {ks : List (Kind n)} {h : Nat → Nat} {i : Nat} {k : Kind n} (hk : ks[i]? = some k) : nameAt ks h i = ⟨k.depth, h i⟩ := by
  unfold nameAt; rw [hk]; rfl

theorem setFn_ne {β : Type} {f : Nat → β} {a b : Nat} {y : β} (h : b ≠ a) : setFn f a y b = f b := if_neg h
theorem setFn_self {β : Type} {f : Nat → β} {a : Nat} {y : β} : setFn f a y a = y := if_pos rfl

theorem nameAt_set {ks : List (Kind n)} {h : Nat → Nat} {i j t : Nat} (hj : j ≠ i) : nameAt ks (setFn h i t) j = nameAt ks h j := by
  unfold nameAt; rw [setFn_ne hj]

theorem names_set {ks : List (Kind n)} {h : Nat → Nat} {i t : Nat} {l : List Nat} (hi : i ∉ l) :
    l.map (nameAt ks (setFn h i t)) = l.map (nameAt ks h) :=
  List.map_congr_left fun j hj => nameAt_set fun e => hi (e ▸ hj)

section
variable {I : Mem p n → Envs n → Prop} {α : Type} {ks : List (Kind n)} {mk : Nat → (k : Kind n) → Pg (Mem p k.depth) Nat}
variable {J : List Nat → (Nat → Nat) → All → Prop} {F : Prop} {f : (Nat → Nat) → Pg (Mem p n) α} {Q : α → All → Prop} {X : Exc → All → Prop}

/-- What code with `holding` does, by an invariant `J` for the objects made so far. -/
theorem runs_holding (hI : Acts p I) (order : List Nat)
    (hstep : ∀ i k done h V s, ks[i]? = some k → i ∉ done → J done h V → Stands I s V → Runs I (k.pos.lift (mk i k)) s
      (fun t V' => V ⟨k.depth, t⟩ = .dead ∧ J (i :: done) (setFn h i t) V') fun e V' => F ∧ e = .badAlloc ∧ V' = V)
    (hlive : ∀ done h V, J done h V → ∀ i ∈ done, V (nameAt ks h i) ≠ .dead)
    (hthrow : F → ∀ done h V, J done h V → X .badAlloc (strip (done.map (nameAt ks h)) V))
    (hf : ∀ h V s, J order.reverse h V → Stands I s V → Runs I (f h) s
      (fun a V' => (∀ i ∈ order, V' (nameAt ks h i) ≠ .dead) ∧ Q a (strip (order.reverse.map (nameAt ks h)) V'))
      fun e V' => (∀ i ∈ order, V' (nameAt ks h i) ≠ .dead) ∧ X e (strip (order.reverse.map (nameAt ks h)) V')) :
    ∀ (l done : List Nat) (h : Nat → Nat) (V : All) (s : Mem p n), order = done.reverse ++ l → order.Nodup → (∀ i ∈ l, i < ks.length) →
      J done h V → Stands I s V → Runs I (holding p ks mk l h f) s
        (fun a V' => (∀ i ∈ done, V' (nameAt ks h i) ≠ .dead) ∧ Q a (strip (done.map (nameAt ks h)) V'))
        fun e V' => (∀ i ∈ done, V' (nameAt ks h i) ≠ .dead) ∧ X e (strip (done.map (nameAt ks h)) V')
  | [], done, h, V, s, ho, hn, hl, hJ, hr => by
    have ho : done = order.reverse := by rw [ho, List.append_nil, List.reverse_reverse]
    subst ho
    refine (hf h V s hJ hr).mono ?_ ?_
    · rintro a V' ⟨h1, h2⟩
      exact ⟨fun i hi => h1 i (List.mem_reverse.mp hi), h2⟩
    · rintro a V' ⟨h1, h2⟩
      exact ⟨fun i hi => h1 i (List.mem_reverse.mp hi), h2⟩
  | i :: l, done, h, V, s, ho, hn, hl, hJ, hr => by
    have hi : i < ks.length := hl i (List.mem_cons_self ..)
    have hk : ks[i]? = some ks[i] := List.getElem?_eq_getElem hi
    have hnot : i ∉ done := by
      rw [ho, List.nodup_append] at hn
      intro hm
      exact hn.2.2 i (List.mem_reverse.mpr hm) i (List.mem_cons_self ..) rfl
    unfold holding
    rw [hk]
    dsimp only
    refine Runs.bind (Q' := fun t V1 => V ⟨ks[i].depth, t⟩ = .dead ∧ J (i :: done) (setFn h i t) V1) ((hstep i _ done h V s hk hnot hJ hr).mono
      (fun _ _ h => h) ?_) ?_
    · rintro e V' ⟨hF, rfl, rfl⟩
      exact ⟨hlive _ _ _ hJ, hthrow hF _ _ _ hJ⟩
    rintro t s1 V1 hr1 ⟨hd, hJ1⟩
    have hx : nameAt ks (setFn h i t) i = ⟨ks[i].depth, t⟩ := by rw [nameAt_eq hk, setFn_self]
    have ih := runs_holding hI order hstep hlive hthrow hf l (i :: done) (setFn h i t) V1 s1 (by rw [ho, List.reverse_cons, List.append_assoc]; rfl) hn
      (fun j hj => hl j (List.mem_cons_of_mem _ hj)) hJ1 hr1
    have hafter : ∀ V' : All, (∀ j ∈ i :: done, V' (nameAt ks (setFn h i t) j) ≠ .dead) → (V' ⟨ks[i].depth, t⟩ ≠ .dead) ∧
        ∀ j ∈ done, (V'.upd ⟨ks[i].depth, t⟩ .dead) (nameAt ks h j) ≠ .dead := by
      intro V' hV
      refine ⟨by rw [← hx]; exact hV i (List.mem_cons_self ..), fun j hj => ?_⟩
      have hji : j ≠ i := fun e => hnot (e ▸ hj)
      have h2 := hV j (List.mem_cons_of_mem _ hj)
      rw [nameAt_set hji] at h2
      rw [All.upd_ne]
      · exact h2
      · intro e
        have := hlive _ _ _ hJ j hj
        rw [e] at this
        exact this hd
    have hstrip : ∀ V' : All, strip (((i :: done).map (nameAt ks (setFn h i t)))) V' = strip (done.map (nameAt ks h)) (V'.upd ⟨ks[i].depth, t⟩ .dead) := by
      intro V'
      rw [List.map_cons, names_set hnot, hx]; rfl
    refine Runs.bind (Q' := fun a V' => (∀ j ∈ i :: done, V' (nameAt ks (setFn h i t) j) ≠ .dead) ∧
      Q a (strip ((i :: done).map (nameAt ks (setFn h i t))) V')) (Runs.onThrow ih ?_) ?_
    · rintro e s2 V2 hr2 ⟨h1, h2⟩
      refine (goes_delete hI _ hr2 (hafter V2 h1).1).mono ?_
      rintro _ V3 rfl
      rw [hstrip] at h2
      exact ⟨(hafter V2 h1).2, h2⟩
    · rintro a s2 V2 hr2 ⟨h1, h2⟩
      refine Runs.bind (Goes.runs (goes_delete hI _ hr2 (hafter V2 h1).1)) ?_
      rintro _ s3 V3 hr3 rfl
      rw [hstrip] at h2
      exact Runs.pure hr3 ⟨(hafter V2 h1).2, h2⟩
end

theorem removed_strip {xs : List Name} {S : Name → Prop} (h : ∀ x, x ∈ xs ↔ S x) (V : All) : Removed S V (strip xs V) :=
  fun x => ⟨fun hx => strip_in ((h x).mpr hx), fun hx => strip_out fun hm => hx ((h x).mp hm)⟩

/-! ## Arguments -/

theorem given_ne (C : Library) (d : Nat) (objv : List Tcl.Obj) (i : Nat) : given C d objv i ≠ .dead := by
  unfold given
  split
  · exact made_ne C d _
  · intro h; cases h

section
variable {I : Mem p n → Envs n → Prop} {α β : Type} {ks : List (Kind n)} {C : Library} {objv : List Tcl.Obj} {V0 : All}

/-- The temporaries made so far. -/
structure Temps (C : Library) (ks : List (Kind n)) (objv : List Tcl.Obj) (V0 : All) (done : List Nat) (h : Nat → Nat) (V : All) : Prop where
  bound : ∀ i ∈ done, i < ks.length
  fresh : ∀ i ∈ done, V0 (nameAt ks h i) = .dead
  value : ∀ i ∈ done, ∀ k, ks[i]? = some k → V ⟨k.depth, h i⟩ = given C k.depth objv i
  apart : ∀ i ∈ done, ∀ j ∈ done, i ≠ j → nameAt ks h i ≠ nameAt ks h j
  rest : ∀ x, (∀ i ∈ done, x ≠ nameAt ks h i) → V x = V0 x

theorem Temps.live {done : List Nat} {h : Nat → Nat} {V : All} (hT : Temps C ks objv V0 done h V) : ∀ i ∈ done, V (nameAt ks h i) ≠ .dead := by
  intro i hi
  have hk := List.getElem?_eq_getElem (hT.bound i hi)
  rw [nameAt_eq hk, hT.value i hi _ hk]
  exact given_ne C _ _ _

theorem Temps.strip {done : List Nat} {h : Nat → Nat} {V : All} (hT : Temps C ks objv V0 done h V) : strip (done.map (nameAt ks h)) V = V0 := by
  funext x
  by_cases hx : x ∈ done.map (nameAt ks h)
  · rw [strip_in hx]
    obtain ⟨i, hi, rfl⟩ := List.mem_map.mp hx
    exact (hT.fresh i hi).symm
  · rw [strip_out hx]
    exact hT.rest x fun i hi e => hx (List.mem_map.mpr ⟨i, hi, e.symm⟩)

theorem Temps.more {done : List Nat} {h : Nat → Nat} {V : All} (hT : Temps C ks objv V0 done h V) {i t : Nat} {k : Kind n}
    (hk : ks[i]? = some k) (hi : i ∉ done) (ht : V ⟨k.depth, t⟩ = .dead) :
    Temps C ks objv V0 (i :: done) (setFn h i t) (V.upd ⟨k.depth, t⟩ (given C k.depth objv i)) := by
  have hx : nameAt ks (setFn h i t) i = ⟨k.depth, t⟩ := by rw [nameAt_eq hk, setFn_self]
  have hother : ∀ j ∈ done, nameAt ks (setFn h i t) j = nameAt ks h j := fun j hj => nameAt_set fun e => hi (e ▸ hj)
  have hne : ∀ j ∈ done, nameAt ks h j ≠ ⟨k.depth, t⟩ := fun j hj e => by
    have := hT.live j hj
    rw [e] at this
    exact this ht
  refine ⟨?_, ?_, ?_, ?_, ?_⟩
  · intro j hj
    rcases List.mem_cons.mp hj with rfl | hj
    · exact (List.getElem?_eq_some_iff.mp hk).1
    · exact hT.bound j hj
  · intro j hj
    rcases List.mem_cons.mp hj with rfl | hj
    · rw [hx, ← hT.rest _ fun j hj e => hne j hj e.symm]; exact ht
    · rw [hother j hj]; exact hT.fresh j hj
  · intro j hj l hl
    rcases List.mem_cons.mp hj with rfl | hj
    · rw [hk] at hl; cases hl
      rw [setFn_self]; exact All.upd_self
    · have h1 := hne j hj
      rw [nameAt_eq hl] at h1
      have : setFn h i t j = h j := setFn_ne fun e => hi (e ▸ hj)
      rw [this, All.upd_ne h1]
      exact hT.value j hj l hl
  · intro a ha b hb hab
    rcases List.mem_cons.mp ha with rfl | ha1 <;> rcases List.mem_cons.mp hb with rfl | hb1
    · exact absurd rfl hab
    · rw [hx, hother b hb1]; exact fun e => hne b hb1 e.symm
    · rw [hx, hother a ha1]; exact hne a ha1
    · rw [hother a ha1, hother b hb1]; exact hT.apart a ha1 b hb1 hab
  · intro x hx'
    have h1 := hx' i (List.mem_cons_self ..)
    rw [hx] at h1
    rw [All.upd_ne h1]
    exact hT.rest x fun j hj => by rw [← hother j hj]; exact hx' j (List.mem_cons_of_mem _ hj)

/-- The parameters made so far; `V1` is before the first. -/
structure Pars (p : Params) (C : Library) (ks : List (Kind n)) (objv : List Tcl.Obj) (V1 : All) (ts : Nat → Nat) (done : List Nat) (h : Nat → Nat)
    (V : All) : Prop where
  bound : ∀ i ∈ done, i < ks.length
  fresh : ∀ i ∈ done, V1 (nameAt ks h i) = .dead
  value : ∀ i ∈ done, ∀ k, ks[i]? = some k → V ⟨k.depth, h i⟩ = given C k.depth objv i
  temp : ∀ i ∈ done, ∀ k, ks[i]? = some k → V ⟨k.depth, ts i⟩ = left p k.depth
  apart : ∀ i ∈ done, ∀ j ∈ done, i ≠ j → nameAt ks h i ≠ nameAt ks h j
  rest : ∀ x, (∀ i ∈ done, x ≠ nameAt ks h i) → (∀ i ∈ done, x ≠ nameAt ks ts i) → V x = V1 x

theorem Pars.live {V1 V : All} {ts h : Nat → Nat} {done : List Nat} (hP : Pars p C ks objv V1 ts done h V) : ∀ i ∈ done, V (nameAt ks h i) ≠ .dead := by
  intro i hi
  have hk := List.getElem?_eq_getElem (hP.bound i hi)
  rw [nameAt_eq hk, hP.value i hi _ hk]
  exact given_ne C _ _ _

theorem Pars.more {o : List Nat} {V1 V : All} {ts h : Nat → Nat} {done : List Nat} (hT : Temps C ks objv V0 o ts V1) (ho : ∀ i, i < ks.length → i ∈ o)
    (hP : Pars p C ks objv V1 ts done h V) {i t : Nat} {k : Kind n} (hk : ks[i]? = some k) (hi : i ∉ done) (ht : V ⟨k.depth, t⟩ = .dead) :
    V ⟨k.depth, ts i⟩ = given C k.depth objv i ∧
      Pars p C ks objv V1 ts (i :: done) (setFn h i t) ((V.upd ⟨k.depth, ts i⟩ (left p k.depth)).upd ⟨k.depth, t⟩ (given C k.depth objv i)) := by
  have hlt := (List.getElem?_eq_some_iff.mp hk).1
  have hio := ho i hlt
  have hx : nameAt ks (setFn h i t) i = ⟨k.depth, t⟩ := by rw [nameAt_eq hk, setFn_self]
  have hy : nameAt ks ts i = ⟨k.depth, ts i⟩ := nameAt_eq hk
  have hother : ∀ j ∈ done, nameAt ks (setFn h i t) j = nameAt ks h j := fun j hj => nameAt_set fun e => hi (e ▸ hj)
  have hne : ∀ j ∈ done, nameAt ks h j ≠ ⟨k.depth, t⟩ := fun j hj e => by
    have := hP.live j hj
    rw [e] at this
    exact this ht
  have hts : ∀ j ∈ done, (⟨k.depth, ts i⟩ : Name) ≠ nameAt ks ts j := fun j hj e => by
    refine hT.apart i hio j (ho j (hP.bound j hj)) (fun e => hi (e ▸ hj)) ?_
    rw [hy]; exact e
  have hmix : ∀ a, a < ks.length → ∀ j ∈ done, nameAt ks ts a ≠ nameAt ks h j := fun a ha j hj e => by
    have := hT.live a (ho a ha)
    rw [e] at this
    exact this (hP.fresh j hj)
  have hV : V ⟨k.depth, ts i⟩ = given C k.depth objv i := by
    rw [hP.rest _ (fun j hj => by rw [← hy]; exact hmix i hlt j hj) hts]
    exact hT.value i hio k hk
  have htt : ∀ a, a < ks.length → nameAt ks ts a ≠ ⟨k.depth, t⟩ := fun a ha e => by
    by_cases had : a ∈ done
    · have hka := List.getElem?_eq_getElem ha
      have := hP.temp a had _ hka
      rw [← e] at ht
      rw [nameAt_eq hka, this] at ht
      exact left_ne p _ ht
    · have h1 : V (nameAt ks ts a) = V1 (nameAt ks ts a) := hP.rest _ (fun j hj => hmix a ha j hj) fun j hj e => by
        exact hT.apart a (ho a ha) j (ho j (hP.bound j hj)) (fun e => had (e ▸ hj)) e
      rw [e, ht, ← e] at h1
      exact hT.live a (ho a ha) h1.symm
  have hV1 : V1 ⟨k.depth, t⟩ = .dead := by
    rw [← hP.rest _ (fun j hj e => hne j hj e.symm) fun j hj e => htt j (hP.bound j hj) e.symm]
    exact ht
  refine ⟨hV, ?_, ?_, ?_, ?_, ?_, ?_⟩
  · intro j hj
    rcases List.mem_cons.mp hj with rfl | hj
    · exact hlt
    · exact hP.bound j hj
  · intro j hj
    rcases List.mem_cons.mp hj with rfl | hj
    · rw [hx]; exact hV1
    · rw [hother j hj]; exact hP.fresh j hj
  · intro j hj l hl
    rcases List.mem_cons.mp hj with rfl | hj
    · rw [hk] at hl; cases hl
      rw [setFn_self]; exact All.upd_self
    · have h1 := hne j hj
      have h2 := hmix i hlt j hj
      rw [nameAt_eq hl] at h1 h2
      rw [hy] at h2
      have : setFn h i t j = h j := setFn_ne fun e => hi (e ▸ hj)
      rw [this, All.upd_ne h1, All.upd_ne h2.symm]
      exact hP.value j hj l hl
  · intro j hj l hl
    have h1 := htt j (List.getElem?_eq_some_iff.mp hl).1
    rw [nameAt_eq hl] at h1
    rw [All.upd_ne h1]
    rcases List.mem_cons.mp hj with rfl | hj
    · rw [hk] at hl; cases hl
      exact All.upd_self
    · have h2 := hts j hj
      rw [nameAt_eq hl] at h2
      rw [All.upd_ne h2.symm]
      exact hP.temp j hj l hl
  · intro a ha b hb hab
    rcases List.mem_cons.mp ha with rfl | ha1 <;> rcases List.mem_cons.mp hb with rfl | hb1
    · exact absurd rfl hab
    · rw [hx, hother b hb1]; exact fun e => hne b hb1 e.symm
    · rw [hx, hother a ha1]; exact hne a ha1
    · rw [hother a ha1, hother b hb1]; exact hP.apart a ha1 b hb1 hab
  · intro x h1 h2
    have h3 := h1 i (List.mem_cons_self ..)
    have h4 := h2 i (List.mem_cons_self ..)
    rw [hx] at h3
    rw [hy] at h4
    rw [All.upd_ne h3, All.upd_ne h4]
    exact hP.rest x (fun j hj => by rw [← hother j hj]; exact h1 j (List.mem_cons_of_mem _ hj)) fun j hj => h2 j (List.mem_cons_of_mem _ hj)

theorem among_iff {o : List Nat} (ho : ∀ i, i ∈ o ↔ i < ks.length) (h : Nat → Nat) (x : Name) : x ∈ o.map (nameAt ks h) ↔ Among ks h x := by
  constructor
  · intro hx
    obtain ⟨i, hi, rfl⟩ := List.mem_map.mp hx
    have hk := List.getElem?_eq_getElem ((ho i).mp hi)
    exact ⟨i, _, hk, nameAt_eq hk⟩
  · rintro ⟨i, k, hk, rfl⟩
    exact List.mem_map.mpr ⟨i, (ho i).mpr (List.getElem?_eq_some_iff.mp hk).1, nameAt_eq hk⟩

theorem runs_argTemp (hs : IsStr p.str) (hI : Acts p I) {i : Nat} {k : Kind n} {s : Mem p n} {V : All} (hr : Stands I s V) :
    Runs I (k.pos.lift (argTemp p C objv i k)) s (fun t V' => V ⟨k.depth, t⟩ = .dead ∧ V' = V.upd ⟨k.depth, t⟩ (given C k.depth objv i))
      fun e V' => e = .badAlloc ∧ V' = V := by
  unfold argTemp given
  by_cases h : objv.length - 1 ≥ i + 1
  · rw [if_pos h, List.getElem?_eq_getElem (by omega : i + 1 < objv.length)]
    exact runs_fromTcl hs C _ hI k.pos hr
  · rw [if_neg h, List.getElem?_eq_none (by omega : objv.length ≤ i + 1)]
    exact (goes_new hI k.pos hr).runs

theorem begun {o1 o2 : List Nat} (ho1 : ∀ i, i ∈ o1 ↔ i < ks.length) (ho2 : ∀ i, i ∈ o2 ↔ i < ks.length) {V1 V2 : All} {ts us : Nat → Nat}
    (hT : Temps C ks objv V0 o1 ts V1) (hP : Pars p C ks objv V1 ts o2 us V2) : Begun p C ks objv V0 V2 ts us := by
  have lt : ∀ {i k}, ks[i]? = some k → i < ks.length := fun h => (List.getElem?_eq_some_iff.mp h).1
  have hmix : ∀ x, ¬ (Among ks us x ∧ Among ks ts x) := by
    rintro x ⟨⟨i, k, hk, rfl⟩, j, l, hl, hx⟩
    have h1 := hP.fresh i ((ho2 i).mpr (lt hk))
    have h2 := hT.live j ((ho1 j).mpr (lt hl))
    rw [nameAt_eq hk, hx] at h1
    rw [nameAt_eq hl] at h2
    exact h2 h1
  refine ⟨?_, ?_, ?_, ?_, hmix, ?_⟩
  · intro x hx
    by_cases hts : Among ks ts x
    · obtain ⟨i, k, hk, rfl⟩ := hts
      rw [← nameAt_eq hk]
      exact hT.fresh i ((ho1 i).mpr (lt hk))
    · obtain ⟨i, k, hk, rfl⟩ := hx.resolve_right hts
      rw [← hT.rest _ fun j hj e => hts ((among_iff ho1 ts _).mp (List.mem_map.mpr ⟨j, hj, e.symm⟩)), ← nameAt_eq hk]
      exact hP.fresh i ((ho2 i).mpr (lt hk))
  · intro i k hk; exact hP.value i ((ho2 i).mpr (lt hk)) k hk
  · intro i k hk; exact hP.temp i ((ho2 i).mpr (lt hk)) k hk
  · intro i j k l hk hl hij
    have h1 := hP.apart i ((ho2 i).mpr (lt hk)) j ((ho2 j).mpr (lt hl)) hij
    have h2 := hT.apart i ((ho1 i).mpr (lt hk)) j ((ho1 j).mpr (lt hl)) hij
    rw [nameAt_eq hk, nameAt_eq hl] at h1 h2
    exact ⟨h1, h2⟩
  · intro x h1 h2
    rw [hP.rest x (fun i hi e => h1 ((among_iff ho2 us _).mp (List.mem_map.mpr ⟨i, hi, e.symm⟩)))
      fun i hi e => h2 ((among_iff ho1 ts _).mp (List.mem_map.mpr ⟨i, (ho1 i).mpr ((ho2 i).mp hi), e.symm⟩))]
    exact hT.rest x fun i hi e => h2 ((among_iff ho1 ts _).mp (List.mem_map.mpr ⟨i, hi, e.symm⟩))

theorem runs_withArgs (hs : IsStr p.str) (hI : Acts p I) {o1 o2 : List Nat} (ho1 : Order ks o1) (ho2 : Order ks o2)
    {f : (Nat → Nat) → Pg (Mem p n) α} {g : α → Pg (Mem p n) β} {M : (Nat → Nat) → α → All → Prop} {Q : β → All → Prop} {X : Exc → All → Prop}
    {s : Mem p n} (hr : Stands I s V0) (hX : X .badAlloc V0)
    (hf : ∀ ts us V1 s, Begun p C ks objv V0 V1 ts us → Stands I s V1 → Runs I (f us) s
      (fun a V2 => (∀ x, Among ks us x → V2 x ≠ .dead) ∧ ∀ V3, Removed (Among ks us) V2 V3 → M ts a V3)
      fun e V2 => Leaves ks ts us (X e) V2)
    (hg : ∀ ts a V3 s, Stands I s V3 → M ts a V3 → Runs I (g a) s
      (fun b V4 => (∀ x, Among ks ts x → V4 x ≠ .dead) ∧ ∀ V5, Removed (Among ks ts) V4 V5 → Q b V5)
      fun _ _ => False) : Runs I (withArgs p C ks o1 o2 objv f g) s Q X := by
  have hrev : ∀ {o : List Nat}, Order ks o → ∀ i, i ∈ o.reverse ↔ i < ks.length := fun ho i => List.mem_reverse.trans (ho.2 i)
  unfold withArgs
  refine (runs_holding (J := Temps C ks objv V0) (F := True) (Q := Q) (X := X) hI o1 ?_ (fun _ _ _ h => h.live) (fun _ _ _ _ h => by rw [h.strip]; exact hX) ?_
    o1 [] (fun _ => 0) V0 s rfl ho1.1 (fun i hi => (ho1.2 i).mp hi)
    ⟨fun _ h => absurd h List.not_mem_nil, fun _ h => absurd h List.not_mem_nil, fun _ h => absurd h List.not_mem_nil, fun _ h => absurd h List.not_mem_nil, fun _ _ => rfl⟩ hr).mono
    (fun _ _ h => h.2) fun _ _ h => h.2
  · intro i k done h V s hk hi hJ hr
    refine (runs_argTemp hs hI hr).mono ?_ fun _ _ h => ⟨trivial, h⟩
    rintro t V' ⟨h1, rfl⟩
    exact ⟨h1, hJ.more hk hi h1⟩
  intro ts V1 s1 hT hr1
  have hlive : ∀ V : All, (∀ i ∈ o1, V (nameAt ks ts i) ≠ .dead) ↔ ∀ x, Among ks ts x → V x ≠ .dead := by
    intro V
    constructor
    · intro h x hx
      obtain ⟨i, hi, rfl⟩ := List.mem_map.mp ((among_iff ho1.2 ts x).mpr hx)
      exact h i hi
    · intro h i hi
      exact h _ ((among_iff ho1.2 ts _).mp (List.mem_map.mpr ⟨i, hi, rfl⟩))
  refine Runs.bind (Q' := M ts) ?_ ?_
  · refine (runs_holding (J := Pars p C ks objv V1 ts) (F := False) (Q := M ts)
      (X := fun e V => (∀ i ∈ o1, V (nameAt ks ts i) ≠ .dead) ∧ X e (strip (o1.reverse.map (nameAt ks ts)) V)) hI o2 ?_ (fun _ _ _ h => h.live)
      (fun h => h.elim) ?_ o2 [] (fun _ => 0) V1 s1 rfl ho2.1 (fun i hi => (ho2.2 i).mp hi)
      ⟨fun _ h => absurd h List.not_mem_nil, fun _ h => absurd h List.not_mem_nil, fun _ h => absurd h List.not_mem_nil, fun _ h => absurd h List.not_mem_nil, fun _ h => absurd h List.not_mem_nil, fun _ _ _ => rfl⟩ hr1).mono
      (fun _ _ h => h.2) fun _ _ h => h.2
    · intro i k done h V s hk hi hJ hr
      have hlt := (List.getElem?_eq_some_iff.mp hk).1
      have hv : V ⟨k.depth, ts i⟩ = given C k.depth objv i := by
        have hmix : ∀ j ∈ done, nameAt ks ts i ≠ nameAt ks h j := fun j hj e => by
          have := hT.live i ((hrev ho1 i).mpr hlt)
          rw [e] at this
          exact this (hJ.fresh j hj)
        rw [hJ.rest _ (fun j hj => by rw [← nameAt_eq hk]; exact hmix j hj) fun j hj e => by
          refine hT.apart i ((hrev ho1 i).mpr hlt) j ((hrev ho1 j).mpr (hJ.bound j hj)) (fun e => hi (e ▸ hj)) ?_
          rw [nameAt_eq hk]; exact e]
        exact hT.value i ((hrev ho1 i).mpr hlt) k hk
      refine (Goes.runs (goes_newMove hI k.pos hr (by rw [hv]; exact given_ne C _ _ _))).mono ?_ fun _ _ h => h
      rintro t V' ⟨h1, rfl⟩
      refine ⟨h1, ?_⟩
      rw [hv]
      exact (hJ.more hT (fun j hj => (hrev ho1 j).mpr hj) hk hi h1).2
    · intro us V2 s2 hP hr2
      have hb := begun (hrev ho1) (hrev ho2) hT hP
      have hlive2 : ∀ V : All, (∀ x, Among ks us x → V x ≠ .dead) → ∀ i ∈ o2, V (nameAt ks us i) ≠ .dead :=
        fun V h i hi => h _ ((among_iff ho2.2 us _).mp (List.mem_map.mpr ⟨i, hi, rfl⟩))
      refine (hf ts us V2 s2 hb hr2).mono ?_ ?_
      · rintro a V3 ⟨h1, h2⟩
        exact ⟨hlive2 _ h1, h2 _ (removed_strip (among_iff (hrev ho2) us) V3)⟩
      · rintro e V3 ⟨h1, h2⟩
        have hrm := removed_strip (among_iff (hrev ho2) us) V3
        refine ⟨hlive2 _ fun x hx => h1 x (.inl hx), (hlive _).mpr fun x hx => ?_, h2 _ ?_⟩
        · rw [(hrm x).2 fun h => hb.differ x ⟨h, hx⟩]
          exact h1 x (.inr hx)
        · have hrm2 := removed_strip (among_iff (hrev ho1) ts) (strip (o2.reverse.map (nameAt ks us)) V3)
          intro x
          refine ⟨?_, fun hx => ?_⟩
          · intro hx
            by_cases ht : Among ks ts x
            · exact (hrm2 x).1 ht
            · rw [(hrm2 x).2 ht]; exact (hrm x).1 (hx.resolve_right ht)
          · rw [(hrm2 x).2 fun h => hx (.inr h), (hrm x).2 fun h => hx (.inl h)]
  · intro a s2 V3 hr2 hM
    refine (hg ts a V3 s2 hr2 hM).mono ?_ fun _ _ h => h.elim
    rintro b V4 ⟨h1, h2⟩
    exact ⟨(hlive _).mpr h1, h2 _ (removed_strip (among_iff (hrev ho1) ts) V4)⟩
end

end Bdlib.Deep
