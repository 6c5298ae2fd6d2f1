import Verif.Deep.Commands
import Verif.Props.C102

/-!
# C105: commands of scripts whose functions take and return live objects

C56 and C91 speak of commands with values.  Here the arguments, the parameters and the result are objects of a program with any
number of Strings and arrays nested to any depth, the function is any program that calls them, and memory may run out anywhere.
-/

namespace Bdlib.Deep
open Bdlib Bdlib.Spec Bdlib.Rca Bdlib.Tcl Bdlib.Hash

variable {p : Params} {n : Nat} {w : Mem p n} {E : Envs n} {C : Library} {ks : List (Kind n)} {objv : List Tcl.Obj} {o1 o2 : List Nat}
variable {f : (Nat → Nat) → Body n}

theorem lives_sees (w : Mem p n) (E : Envs n) (h : Lives p w E) : Sees p w E := by
  obtain ⟨I, h1, h2, _⟩ := h
  exact h2 w E h1

theorem removed_trans {S T U : Name → Prop} {V V1 V2 : All} (h1 : Removed S V V1) (h2 : Removed T V1 V2) (hu : ∀ x, U x ↔ S x ∨ T x) :
    Removed U V V2 := by
  intro x
  by_cases ht : T x
  · exact ⟨fun _ => (h2 x).1 ht, fun h => absurd ((hu x).mpr (.inr ht)) h⟩
  · rw [(h2 x).2 ht]
    exact ⟨fun h => (h1 x).1 (((hu x).mp h).resolve_right ht), fun h => (h1 x).2 fun hs => h ((hu x).mpr (.inl hs))⟩

/-- A script calls a command with any words, too few or too many included; the arguments are made in any order.  The function is any
program within contract.  If it returns, the reply is the value of what it returned.  If memory runs out before it begins nothing has
happened.  If it throws, the exception arrives with what the function did.  In all cases the arguments, the parameters and the result
are gone, no other object has changed except by the function, and the program may go on for ever.
Partial: strings in the result are shorter than 2^31 - 1 bytes (`c68_refuted_long`). -/
theorem c105_command_partial (hs : IsStr p.str) (h : Lives p w E) (ho1 : Order ks o1) (ho2 : Order ks o2) (res : Kind n)
    {Q : Slot (Ty res.depth) → All → Prop} {X : Exc → All → Prop}
    (hf : ∀ ts us E1, Begun p C ks objv E.all E1.all ts us →
      (f us).Meets p E1 (Returns ks res ts us Q) fun e => Leaves ks ts us (X e)) :
    (∃ y w' E', command p C ks res o1 o2 f objv w = .ok (valueOf y) w' ∧ Q y E'.all ∧ Lives p w' E') ∨
      (∃ w', command p C ks res o1 o2 f objv w = .throw .badAlloc w' ∧ Lives p w' E) ∨
      ∃ e w' E', command p C ks res o1 o2 f objv w = .throw e w' ∧ X e E'.all ∧ Lives p w' E' := by
  have hI := lives_acts p (n := n)
  have main : Runs (fun w E => Lives p w E) (command p C ks res o1 o2 f objv) w (fun o V => ∃ y, o = valueOf y ∧ Q y V)
      fun e V => (e = .badAlloc ∧ V = E.all) ∨ X e V := by
    refine runs_withArgs (V0 := E.all) hs hI ho1 ho2
      (M := fun ts z V => ¬ Among ks ts ⟨res.depth, z⟩ ∧ Known (V ⟨res.depth, z⟩) ∧ Short (V ⟨res.depth, z⟩) ∧ (∀ x, Among ks ts x → V x ≠ .dead) ∧
        ∀ V', Removed (fun x => x = ⟨res.depth, z⟩ ∨ Among ks ts x) V V' → Q (V ⟨res.depth, z⟩) V') ⟨E, h, rfl⟩ (.inl ⟨rfl, rfl⟩) ?_ ?_
    · rintro ts us V1 s hb ⟨E1, hE1, rfl⟩
      refine Runs.bind (Q' := Returns ks res ts us Q) (Runs.mono (Runs.exec hI (f us) hE1 (hf ts us E1 hb)) (fun _ _ h => h)
        fun e V h => ⟨h.1, fun V' hV' => .inr (h.2 V' hV')⟩) ?_
      rintro r s2 V2 hr2 ⟨hkept, hru, hrt, hk, hsh, hq⟩
      refine Runs.bind (Goes.runs (goes_newMove hI res.pos hr2 (known_ne hk))) ?_
      rintro z s3 V3 hr3 ⟨hz, rfl⟩
      have hzr : (⟨res.depth, r⟩ : Name) ≠ ⟨res.depth, z⟩ := fun e => known_ne hk (by rw [e]; exact hz)
      refine Runs.bind (Goes.runs (goes_delete hI res.pos hr3 (t := r) ?_)) ?_
      · rw [All.upd_ne hzr, All.upd_self]; exact left_ne p _
      rintro _ s4 V4 hr4 rfl
      have hz1 : ∀ x, Among ks us x ∨ Among ks ts x → x ≠ ⟨res.depth, z⟩ := fun x hx e => hkept x hx (by rw [e]; exact hz)
      have hr1 : ∀ x, Among ks us x ∨ Among ks ts x → x ≠ ⟨res.depth, r⟩ := fun x hx e => by
        subst e
        exact hx.elim hru hrt
      have hsame : ∀ x, Among ks us x ∨ Among ks ts x → (((V2.upd ⟨res.depth, r⟩ (left p res.depth)).upd ⟨res.depth, z⟩ (V2 ⟨res.depth, r⟩)).upd
          ⟨res.depth, r⟩ .dead) x = V2 x := fun x hx => by
        rw [All.upd_ne (hr1 x hx), All.upd_ne (hz1 x hx), All.upd_ne (hr1 x hx)]
      refine Runs.pure hr4 ⟨fun x hx => ?_, fun V3 hV3 => ?_⟩
      · rw [hsame x (.inl hx)]; exact hkept x (.inl hx)
      · have hzu : ¬ Among ks us ⟨res.depth, z⟩ := fun h => hz1 _ (.inl h) rfl
        have hzt : ¬ Among ks ts ⟨res.depth, z⟩ := fun h => hz1 _ (.inr h) rfl
        have hval : V3 ⟨res.depth, z⟩ = V2 ⟨res.depth, r⟩ := by
          rw [(hV3 _).2 hzu, All.upd_ne hzr.symm, All.upd_self]
        refine ⟨hzt, by rw [hval]; exact hk, by rw [hval]; exact hsh, fun x hx => ?_, fun V' hV' => ?_⟩
        · rw [(hV3 x).2 fun hu => hb.differ x ⟨hu, hx⟩, hsame x (.inr hx)]
          exact hkept x (.inr hx)
        · rw [hval]
          refine hq V' fun x => ⟨fun hx => ?_, fun hx => ?_⟩
          · by_cases h1 : x = ⟨res.depth, z⟩ ∨ Among ks ts x
            · exact (hV' x).1 h1
            · rw [(hV' x).2 h1]
              by_cases h2 : Among ks us x
              · exact (hV3 x).1 h2
              · rw [(hV3 x).2 h2]
                have : x = ⟨res.depth, r⟩ := by
                  rcases hx with hx | hx | hx
                  · exact hx
                  · exact absurd hx h2
                  · exact absurd (.inr hx) h1
                subst this
                exact All.upd_self
          · by_cases h1 : x = ⟨res.depth, z⟩
            · subst h1
              rw [(hV' _).1 (.inl rfl)]; exact hz.symm
            · rw [(hV' x).2 (fun h => h.elim h1 fun h => hx (.inr (.inr h))), (hV3 x).2 (fun h => hx (.inr (.inl h))),
                All.upd_ne (fun e => hx (.inl e)), All.upd_ne h1, All.upd_ne (fun e => hx (.inl e))]
    · rintro ts z V3 s hr ⟨hzt, hk, hsh, hlive, hq⟩
      refine Runs.bind (Goes.runs (goes_toTcl lives_sees res.pos hr hk hsh)) ?_
      rintro o s2 V4 hr2 ⟨rfl, rfl⟩
      refine Runs.bind (Goes.runs (goes_delete hI res.pos hr2 (known_ne hk))) ?_
      rintro _ s3 V5 hr3 rfl
      refine Runs.pure hr3 ⟨fun x hx => ?_, fun V5 hV5 => ⟨_, rfl, hq V5 ?_⟩⟩
      · rw [All.upd_ne (x := ⟨res.depth, z⟩) (z := x) fun e => hzt (by rw [← e]; exact hx)]; exact hlive x hx
      · refine removed_trans (S := fun x => x = ⟨res.depth, z⟩) (fun x => ⟨?_, fun hx => ?_⟩) hV5 fun x => Iff.rfl
        · rintro rfl; exact All.upd_self
        · rw [All.upd_ne hx]
  unfold Runs Ends at main
  cases hc : command p C ks res o1 o2 f objv w with
  | ok o w' =>
    rw [hc] at main
    obtain ⟨V, ⟨y, rfl, hq⟩, E', hE', rfl⟩ := main
    exact .inl ⟨y, w', E', rfl, hq, hE'⟩
  | throw e w' =>
    rw [hc] at main
    obtain ⟨V, hv, E', hE', rfl⟩ := main
    rcases hv with ⟨rfl, hv⟩ | hx
    · rw [all_inj hv] at hE'
      exact .inr (.inl ⟨w', rfl, hE'⟩)
    · exact .inr (.inr ⟨e, w', E', rfl, hx, hE'⟩)
  | ub => rw [hc] at main; exact main.elim

/-- The same for a function without a result; nothing is partial about it. -/
theorem c105_void (hs : IsStr p.str) (h : Lives p w E) (ho1 : Order ks o1) (ho2 : Order ks o2) {Q : All → Prop} {X : Exc → All → Prop}
    (hf : ∀ ts us E1, Begun p C ks objv E.all E1.all ts us →
      (f us).Meets p E1 (fun _ => Leaves ks ts us Q) fun e => Leaves ks ts us (X e)) :
    (∃ w' E', commandVoid p C ks o1 o2 f objv w = .ok () w' ∧ Q E'.all ∧ Lives p w' E') ∨
      (∃ w', commandVoid p C ks o1 o2 f objv w = .throw .badAlloc w' ∧ Lives p w' E) ∨
      ∃ e w' E', commandVoid p C ks o1 o2 f objv w = .throw e w' ∧ X e E'.all ∧ Lives p w' E' := by
  have hI := lives_acts p (n := n)
  have main : Runs (fun w E => Lives p w E) (commandVoid p C ks o1 o2 f objv) w (fun _ V => Q V)
      fun e V => (e = .badAlloc ∧ V = E.all) ∨ X e V := by
    refine runs_withArgs (V0 := E.all) hs hI ho1 ho2
      (M := fun ts _ V => (∀ x, Among ks ts x → V x ≠ .dead) ∧ ∀ V', Removed (Among ks ts) V V' → Q V') ⟨E, h, rfl⟩ (.inl ⟨rfl, rfl⟩) ?_ ?_
    · rintro ts us V1 s hb ⟨E1, hE1, rfl⟩
      refine Runs.bind (Q' := fun _ => Leaves ks ts us Q) (Runs.mono (Runs.exec hI (f us) hE1 (hf ts us E1 hb)) (fun _ _ h => h)
        fun e V h => ⟨h.1, fun V' hV' => .inr (h.2 V' hV')⟩) ?_
      rintro r s2 V2 hr2 ⟨hkept, hq⟩
      refine Runs.pure hr2 ⟨fun x hx => hkept x (.inl hx), fun V3 hV3 => ⟨fun x hx => ?_, fun V' hV' => hq V' (removed_trans hV3 hV' fun _ => Iff.rfl)⟩⟩
      rw [(hV3 x).2 fun hu => hb.differ x ⟨hu, hx⟩]
      exact hkept x (.inr hx)
    · rintro ts _ V3 s hr h
      exact Runs.pure hr h
  unfold Runs Ends at main
  cases hc : commandVoid p C ks o1 o2 f objv w with
  | ok o w' =>
    rw [hc] at main
    obtain ⟨V, hq, E', hE', rfl⟩ := main
    exact .inl ⟨w', E', rfl, hq, hE'⟩
  | throw e w' =>
    rw [hc] at main
    obtain ⟨V, hv, E', hE', rfl⟩ := main
    rcases hv with ⟨rfl, hv⟩ | hx
    · rw [all_inj hv] at hE'
      exact .inr (.inl ⟨w', rfl, hE'⟩)
    · exact .inr (.inr ⟨e, w', E', rfl, hx, hE'⟩)
  | ub => rw [hc] at main; exact main.elim

/-! ## A function that returns an array -/

/-- The types `Array<T>` and `T` of greatest depth. -/
def arrKind (n : Nat) : Kind (n + 1) := ⟨n + 1, .here⟩
def eltKind (n : Nat) : Kind (n + 1) := ⟨n, .up .here⟩

/-- `Array<T> push(Array<T> a, T b) { a << b; return a; }` -/
def push (n : Nat) (us : Nat → Nat) : Body (n + 1) :=
  .call (.append (us 0) (us 1)) fun
    | .exc e => .raise e
    | .ret _ => .call (.arr (.moveCtor (us 0))) fun
      | .ret (.here (.obj r)) => .ret r
      | .ret _ => .ret 0
      | .exc e => .raise e

theorem All.upd_live {V : All} {x : Name} {y : Slot (Ty x.depth)} (hy : y ≠ .dead) : V.upd x y x ≠ .dead := by
  rw [All.upd_self]; exact hy

theorem known_made (C : Library) : ∀ (d : Nat) (o : Tcl.Obj), Known (made C d o)
  | 0, _ => ⟨_, rfl⟩
  | d + 1, o => by
    unfold made
    cases C.elements o with
    | none => exact ⟨[], rfl, fun _ h => absurd h List.not_mem_nil⟩
    | some os => exact ⟨_, rfl, fun x hx => by obtain ⟨o', _, rfl⟩ := List.mem_map.mp hx; exact known_made C d o'⟩

theorem known_given (C : Library) (d : Nat) (objv : List Tcl.Obj) (i : Nat) : Known (given C d objv i) := by
  unfold given
  split
  · exact known_made C d _
  · cases d with
    | zero => exact ⟨_, rfl⟩
    | succ d => exact ⟨[], rfl, fun _ h => absurd h List.not_mem_nil⟩

theorem Leaves.mono {ts us : Nat → Nat} {Q Q' : All → Prop} {V : All} (h : Leaves ks ts us Q V) (hq : ∀ V, Q V → Q' V) : Leaves ks ts us Q' V :=
  ⟨h.1, fun V' hV' => hq _ (h.2 V' hV')⟩

theorem Begun.live {V0 V : All} {ts us : Nat → Nat} (hb : Begun p C ks objv V0 V ts us) : Spared ks ts us V := by
  rintro x (⟨i, k, hk, rfl⟩ | ⟨i, k, hk, rfl⟩)
  · rw [hb.value i k hk]; exact given_ne C _ _ _
  · rw [hb.temp i k hk]; exact left_ne p _

/-- A function that has only changed a parameter. -/
theorem Begun.leaves {V0 V : All} {ts us : Nat → Nat} (hb : Begun p C ks objv V0 V ts us) {x : Name} (hx : Among ks us x) {y : Slot (Ty x.depth)}
    (hy : y ≠ .dead) : Leaves ks ts us (fun V' => V' = V0) (V.upd x y) := by
  refine ⟨fun z hz => ?_, fun V' hV' => funext fun z => ?_⟩
  · by_cases he : z = x
    · subst he; exact All.upd_live hy
    · rw [All.upd_ne he]; exact hb.live z hz
  · by_cases hz : Among ks us z ∨ Among ks ts z
    · rw [(hV' z).1 hz, hb.fresh z hz]
    · rw [(hV' z).2 hz, All.upd_ne fun e => hz (.inl (by rw [e]; exact hx)), hb.rest z (fun h => hz (.inl h)) fun h => hz (.inr h)]

/-- A function that has changed a parameter and an object of the program. -/
theorem Begun.leaves_both {V0 V : All} {ts us : Nat → Nat} (hb : Begun p C ks objv V0 V ts us) {x g : Name} (hx : Among ks us x) {L : Slot (Ty x.depth)}
    (hL : L ≠ .dead) (hg : V0 g ≠ .dead) {y : Slot (Ty g.depth)} : Leaves ks ts us (fun V' => V' = V0.upd g y) ((V.upd x L).upd g y) := by
  have hnot : ∀ x, Among ks us x ∨ Among ks ts x → x ≠ g := fun x hx e => hg (by rw [← e]; exact hb.fresh x hx)
  obtain ⟨h1, h2⟩ := hb.leaves hx hL
  refine ⟨fun x hx => ?_, fun V' hV' => funext fun z => ?_⟩
  · rw [All.upd_ne (hnot x hx)]; exact h1 x hx
  · by_cases hz : z = g
    · subst hz
      rw [(hV' _).2 (fun h => hnot _ h rfl), All.upd_self, All.upd_self]
    · rw [All.upd_ne hz]
      by_cases hm : Among ks us z ∨ Among ks ts z
      · rw [(hV' z).1 hm, hb.fresh z hm]
      · rw [(hV' z).2 hm, All.upd_ne hz, All.upd_ne fun e => hm (.inl (by rw [e]; exact hx))]
        exact hb.rest z (fun h => hm (.inl h)) fun h => hm (.inr h)

/-- A function that has changed a parameter and made what it returns. -/
theorem Begun.returns {V0 V : All} {ts us : Nat → Nat} (hb : Begun p C ks objv V0 V ts us) {res : Kind n} {a r : Nat} {L y : Slot (Ty res.depth)}
    (ha : Among ks us ⟨res.depth, a⟩) (hr : V ⟨res.depth, r⟩ = .dead) (hL : L ≠ .dead) (hk : Known y) (hsh : Short y) :
    Returns ks res ts us (fun z V' => z = y ∧ V' = V0) r ((V.upd ⟨res.depth, a⟩ L).upd ⟨res.depth, r⟩ y) := by
  have hne : ∀ x, Among ks us x ∨ Among ks ts x → x ≠ ⟨res.depth, r⟩ := fun x hx e => hb.live x hx (by rw [e]; exact hr)
  have hval : ((V.upd ⟨res.depth, a⟩ L).upd ⟨res.depth, r⟩ y) ⟨res.depth, r⟩ = y := All.upd_self
  refine ⟨fun x hx => ?_, fun h => hne _ (.inl h) rfl, fun h => hne _ (.inr h) rfl, ?_, ?_, fun V' hV' => ⟨hval, funext fun z => ?_⟩⟩
  · rw [All.upd_ne (hne x hx)]
    by_cases he : x = ⟨res.depth, a⟩
    · subst he; exact All.upd_live hL
    · rw [All.upd_ne he]; exact hb.live x hx
  · rw [hval]; exact hk
  · rw [hval]; exact hsh
  · by_cases hz : Among ks us z ∨ Among ks ts z
    · rw [(hV' z).1 (.inr hz), hb.fresh z hz]
    · have hu : ¬ Among ks us z := fun h => hz (.inl h)
      have ht : ¬ Among ks ts z := fun h => hz (.inr h)
      rw [← hb.rest z hu ht]
      by_cases he : z = ⟨res.depth, r⟩
      · subst he; rw [(hV' _).1 (.inl rfl), hr]
      · rw [(hV' z).2 (fun h => h.elim he hz), All.upd_ne he, All.upd_ne fun e => hu (by rw [e]; exact ha)]

theorem all_outer {n : Nat} (A : Envs n) (B : Env (Slot (Ty n))) (o : Nat) : Envs.all (n := n + 1) (A, B) ⟨n + 1, o⟩ = B o :=
  all_at (n := n + 1) .here (A, B) o

theorem all_next {n : Nat} (A : Envs n) (B : Env (Slot (Ty n))) (o : Nat) : Envs.all (n := n + 1) (A, B) ⟨n, o⟩ = A.top o :=
  all_at (n := n + 1) (.up .here) (A, B) o

theorem all_upd_top {n : Nat} (A : Envs n) (B : Env (Slot (Ty n))) (o : Nat) (y : Slot (Slot (Ty n))) :
    Envs.all (n := n + 1) (A, B.upd o y) = (Envs.all (n := n + 1) (A, B)).upd ⟨n + 1, o⟩ y :=
  all_put (n := n + 1) .here (A, B) o y

theorem all_upd_below : ∀ {n : Nat} (A : Envs n) (B : Env (Slot (Ty n))) (o : Nat) (y : Slot (Ty n)),
    Envs.all (n := n + 1) (A.upd o y, B) = (Envs.all (n := n + 1) (A, B)).upd ⟨n, o⟩ y
  | 0, A, B, o, y => all_put (n := 1) (.up .here) (A, B) o y
  | n + 1, A, B, o, y => all_put (n := n + 2) (.up .here) (A, B) o y

/-- A script calls `push` with any words: the reply is the list with one element more, no object of the program has changed, no
object is left; or memory has run out, at any depth, and nothing has happened. -/
theorem c105_push_partial (hs : IsStr p.str) {w : Mem p (n + 1)} {E : Envs (n + 1)} (h : Lives p w E) {objv : List Tcl.Obj}
    {o1 o2 : List Nat} (ho1 : Order [arrKind n, eltKind n] o1) (ho2 : Order [arrKind n, eltKind n] o2) {xs : List (Slot (Ty n))}
    (hxs : given C (n + 1) objv 0 = .val xs) (hsh : ∀ x ∈ xs, Short x) (hsh1 : Short (given C n objv 1)) :
    (∃ w', command p C [arrKind n, eltKind n] (arrKind n) o1 o2 (push n) objv w =
        .ok (.list (xs.map valueOf ++ [valueOf (given C n objv 1)])) w' ∧ Lives p w' E) ∨
      ∃ w', command p C [arrKind n, eltKind n] (arrKind n) o1 o2 (push n) objv w = .throw .badAlloc w' ∧ Lives p w' E := by
  have hk0 := known_given C (n + 1) objv 0
  rw [hxs] at hk0
  obtain ⟨_, hv, hk0⟩ := hk0
  cases hv
  have hf : ∀ ts us E1, Begun p C [arrKind n, eltKind n] objv E.all E1.all ts us → (push n us).Meets p E1
      (Returns [arrKind n, eltKind n] (arrKind n) ts us fun (y : Slot (Slot (Ty n))) V => y = .val (xs ++ [given C n objv 1]) ∧ V = E.all)
      fun e => Leaves [arrKind n, eltKind n] ts us fun V => e = .badAlloc ∧ V = E.all := by
    rintro ts us ⟨A, B⟩ hb
    have h0 : Among [arrKind n, eltKind n] us ⟨n + 1, us 0⟩ := ⟨0, arrKind n, rfl, rfl⟩
    have hB : B (us 0) = .val xs := by
      rw [← all_outer A B]; exact (hb.value 0 (arrKind n) rfl).trans hxs
    have hA : A.top (us 1) = given C n objv 1 := by
      rw [← all_next A B]; exact hb.value 1 (eltKind n) rfl
    have hget : B.get (us 0) = xs := by unfold Env.get; rw [hB]
    intro sh
    refine ⟨⟨⟨xs, hB⟩, fun h => given_ne C n objv 1 (hA.symm.trans h)⟩, ?_⟩
    rintro out ⟨A', B'⟩ ⟨o, ho, rfl, hA'⟩
    have hA' : A = A' := Eq.symm hA'
    subst hA'
    cases o with
    | exc e =>
      rcases ho with ⟨h1, _⟩ | ⟨h1, h2⟩
      · cases h1
      cases h1
      have hleave : ∀ (y : Slot (Slot (Ty n))), y ≠ .dead → B' = B.upd (us 0) y →
          Leaves [arrKind n, eltKind n] ts us (fun V => Exc.badAlloc = .badAlloc ∧ V = E.all) (Envs.all (n := n + 1) (A, B')) := by
        intro y hy hB'
        rw [hB', all_upd_top]
        exact (hb.leaves h0 hy).mono fun _ h => ⟨rfl, h⟩
      change B' = ite _ _ _ at h2
      split at h2
      · exact hleave (.val []) (fun h => by cases h) h2
      · exact hleave (B (us 0)) (by rw [hB]; intro h; cases h) (h2.trans (env_back B (us 0)).symm)
    | ret a =>
      rcases ho with ⟨_, h2⟩ | ⟨h1, _⟩
      · change B' = B.upd (us 0) (.val (B.get (us 0) ++ [A.top (us 1)])) at h2
        rw [hget, hA] at h2
        have hB' : B' (us 0) = .val (xs ++ [given C n objv 1]) := by rw [h2, Env.upd_self]
        intro sh'
        refine ⟨⟨trivial, fun h => ?_⟩, ?_⟩
        · have h : B' (us 0) = .dead := h
          rw [hB'] at h; cases h
        rintro out ⟨A'', B''⟩ ⟨o, ⟨r, hr, rfl, h3⟩, rfl, h4⟩
        have h4 : A = A'' := Eq.symm h4
        subst h4
        obtain ⟨L, hL, hr, h3⟩ : ∃ L : Slot (Slot (Ty n)), L ≠ .dead ∧ B'.upd (us 0) L r = .dead ∧
          B'' = (B'.upd (us 0) L).upd r (B' (us 0)) := ⟨_, left_ne p (n + 1), hr, h3⟩
        have hru : r ≠ us 0 := by
          rintro rfl
          rw [Env.upd_self] at hr
          exact hL hr
        rw [Env.upd_ne hru, h2, Env.upd_ne hru] at hr
        rw [hB', h2, env_twice] at h3
        have hall : ∀ x, x ∈ xs ++ [given C n objv 1] → Known x ∧ Short x := by
          intro x hx
          rcases List.mem_append.mp hx with hx | hx
          · exact ⟨hk0 x hx, hsh x hx⟩
          · rw [List.mem_singleton.mp hx]; exact ⟨known_given C n objv 1, hsh1⟩
        have := hb.returns (res := arrKind n) (a := us 0) (r := r) (L := L) (y := .val (xs ++ [given C n objv 1])) h0
          ((all_outer A B r).trans hr) hL ⟨_, rfl, fun x hx => (hall x hx).1⟩ fun x hx => (hall x hx).2
        have he : Envs.all (n := n + 1) (A, B'') = ((Envs.all (n := n + 1) (A, B)).upd ⟨n + 1, us 0⟩ L).upd ⟨n + 1, r⟩ (.val (xs ++ [given C n objv 1])) := by
          refine (congrArg (fun b => Envs.all (n := n + 1) (A, b)) h3).trans ((all_upd_top A (B.upd (us 0) L) r _).trans ?_)
          exact congrArg (fun V : All => V.upd ⟨n + 1, r⟩ (.val (xs ++ [given C n objv 1]))) (all_upd_top A B (us 0) L)
        show Returns [arrKind n, eltKind n] (arrKind n) ts us _ r (Envs.all (n := n + 1) (A, B''))
        rw [he]
        exact this
      · cases h1
  rcases c105_command_partial (C := C) (f := push n) (objv := objv) hs h ho1 ho2 (arrKind n)
    (Q := fun (y : Slot (Slot (Ty n))) V => y = .val (xs ++ [given C n objv 1]) ∧ V = E.all) (X := fun e V => e = .badAlloc ∧ V = E.all) hf with
    ⟨y, w', E', h1, ⟨rfl, h2⟩, h3⟩ | ⟨w', h1, h2⟩ | ⟨e, w', E', h1, ⟨rfl, h2⟩, h3⟩
  · rw [all_inj h2] at h3
    refine .inl ⟨w', ?_, h3⟩
    rw [h1]
    show Res.ok (Tcl.Obj.list (List.map valueOf (xs ++ [given C n objv 1]))) w' = _
    rw [List.map_append]; rfl
  · exact .inr ⟨w', h1, h2⟩
  · rw [all_inj h2] at h3
    exact .inr ⟨w', h1, h3⟩

/-! ## A function that changes the program -/

/-- `void add(T b) { global << std::move(b); }` for an array `global` of the program. -/
def add (n global : Nat) (us : Nat → Nat) : Body (n + 1) :=
  .call (.appendMove global (us 0)) fun
    | .exc e => .raise e
    | .ret _ => .ret 0

/-- A script calls `add` with any words: the array has one element more, which holds what the word says, no other object has changed,
no object is left; or memory has run out: then the array is as it was, or empty if it shared its storage. -/
theorem c105_add (hs : IsStr p.str) {w : Mem p (n + 1)} {A : Envs n} {B : Env (Slot (Ty n))} (h : Lives p (n := n + 1) w (A, B)) {g : Nat}
    {v : List (Slot (Ty n))} (hg : B g = .val v) {objv : List Tcl.Obj} {o1 o2 : List Nat} (ho1 : Order [eltKind n] o1) (ho2 : Order [eltKind n] o2) :
    (∃ w', commandVoid p C [eltKind n] o1 o2 (add n g) objv w = .ok () w' ∧
        Lives p (n := n + 1) w' (A, B.upd g (.val (v ++ [given C n objv 0])))) ∨
      ∃ w' v', (v' = v ∨ v' = []) ∧ commandVoid p C [eltKind n] o1 o2 (add n g) objv w = .throw .badAlloc w' ∧
        Lives p (n := n + 1) w' (A, B.upd g (.val v')) := by
  have hback : (A, B) = (A, B.upd g (.val v)) := by rw [← hg, env_back]
  have hf : ∀ ts us E1, Begun p C [eltKind n] objv (Envs.all (n := n + 1) (A, B)) E1.all ts us → (add n g us).Meets p E1
      (fun _ => Leaves [eltKind n] ts us fun V => V = Envs.all (n := n + 1) (A, B.upd g (.val (v ++ [given C n objv 0]))))
      fun e => Leaves [eltKind n] ts us fun V => e = .badAlloc ∧ ∃ v', (v' = v ∨ v' = []) ∧ V = Envs.all (n := n + 1) (A, B.upd g (.val v')) := by
    rintro ts us ⟨A1, B1⟩ hb
    have hlive : Envs.all (n := n + 1) (A, B) ⟨n + 1, g⟩ ≠ .dead := by
      rw [all_outer A B, hg]; intro h; cases h
    have hnot : ∀ x, Among [eltKind n] us x ∨ Among [eltKind n] ts x → x ≠ ⟨n + 1, g⟩ := fun x hx e => hlive (by rw [← e]; exact hb.fresh x hx)
    have hB : B1 g = .val v := by
      rw [← hg, ← all_outer A B, ← all_outer A1 B1]
      exact hb.rest _ (fun h => hnot _ (.inl h) rfl) fun h => hnot _ (.inr h) rfl
    have hget : B1.get g = v := by unfold Env.get; rw [hB]
    have hA : A1.top (us 0) = given C n objv 0 := by
      rw [← all_next A1 B1]; exact hb.value 0 (eltKind n) rfl
    have h0 : Among [eltKind n] us ⟨n, us 0⟩ := ⟨0, eltKind n, rfl, rfl⟩
    have hend : ∀ (A2 : Envs n) (L : Slot (Ty n)) (y : List (Slot (Ty n))), L ≠ .dead → A2 = A1.upd (us 0) L →
        Leaves [eltKind n] ts us (fun V => V = Envs.all (n := n + 1) (A, B.upd g (.val y))) (Envs.all (n := n + 1) (A2, B1.upd g (.val y))) := by
      intro A2 L y hL hA2
      have e1 : Envs.all (n := n + 1) (A2, B1.upd g (.val y)) = ((Envs.all (n := n + 1) (A1, B1)).upd ⟨n, us 0⟩ L).upd ⟨n + 1, g⟩ (.val y) := by
        rw [hA2]
        refine (all_upd_top _ B1 g (.val y)).trans ?_
        exact congrArg (fun V : All => V.upd ⟨n + 1, g⟩ (.val y)) (all_upd_below A1 B1 (us 0) L)
      have e2 := all_upd_top A B g (.val y)
      rw [e1, e2]
      exact hb.leaves_both h0 hL hlive
    intro sh
    refine ⟨⟨⟨v, hB⟩, fun h => given_ne C n objv 0 (hA.symm.trans h)⟩, ?_⟩
    rintro out ⟨A', B'⟩ ⟨o, ho, rfl, hA'⟩
    cases o with
    | exc e =>
      have hA' : A' = A1 := hA'
      rcases ho with ⟨h1, _⟩ | ⟨h1, h2⟩
      · cases h1
      cases h1
      have hA2 : A' = A1.upd (us 0) (A1.top (us 0)) := by rw [upd_back rfl]; exact hA'
      have hL : A1.top (us 0) ≠ .dead := by rw [hA]; exact given_ne C _ _ _
      have hleave : ∀ y, (y = v ∨ y = []) → B' = B1.upd g (.val y) → Leaves [eltKind n] ts us (fun V => Exc.badAlloc = .badAlloc ∧ ∃ v', (v' = v ∨ v' = []) ∧
          V = Envs.all (n := n + 1) (A, B.upd g (.val v'))) (Envs.all (n := n + 1) (A', B')) := by
        intro y hy hB'
        rw [hB']
        exact (hend A' _ y hL hA2).mono fun V hV => ⟨rfl, y, hy, hV⟩
      change B' = ite _ _ _ at h2
      split at h2
      · exact hleave [] (.inr rfl) h2
      · refine hleave v (.inl rfl) (h2.trans ?_)
        show B1 = _
        rw [← hB, env_back]
    | ret a =>
      rcases ho with ⟨_, h2⟩ | ⟨h1, _⟩
      · change B' = B1.upd g (.val (B1.get g ++ [A1.top (us 0)])) at h2
        rw [hget, hA] at h2
        show Leaves _ ts us _ (Envs.all (n := n + 1) (A', B'))
        rw [h2]
        exact hend A' _ _ (left_ne p n) hA'
      · cases h1
  rcases c105_void (C := C) (f := add n g) (objv := objv) hs h ho1 ho2 hf with ⟨w', E', h1, h2, h3⟩ | ⟨w', h1, h2⟩ | ⟨e, w', E', h1, ⟨rfl, v', h2, h3⟩, h4⟩
  · rw [all_inj h2] at h3
    exact .inl ⟨w', h1, h3⟩
  · rw [hback] at h2
    exact .inr ⟨w', v, .inl rfl, h1, h2⟩
  · rw [all_inj h3] at h4
    exact .inr ⟨w', v', h2, h1, h4⟩

/-! ## Programs -/

/-- The words of the reply, if it is a list of texts. -/
def reply {S : Type} : Res S Tcl.Obj → Option (List (Option Str.Bytes))
  | .ok (.list os) _ => some (os.map fun
    | .str b => some b
    | _ => none)
  | _ => none

/-- `push {a bc} d` -/
def pushWords : List Tcl.Obj := [.str [112], .list [.str [97], .str [98, 99]], .str [100]]

/-- The arguments made from the right to the left and from the left to the right. -/
theorem order_two {k : Kind n} {l : Kind n} : Order [k, l] [1, 0] ∧ Order [k, l] [0, 1] := by
  refine ⟨⟨by decide, fun i => ?_⟩, by decide, fun i => ?_⟩ <;>
  · simp only [List.mem_cons, List.not_mem_nil, or_false, List.length_cons, List.length_nil]; omega

theorem order_one {k : Kind n} : Order [k] [0] := ⟨by decide, fun i => by
  simp only [List.mem_cons, List.not_mem_nil, or_false, List.length_cons, List.length_nil]; omega⟩

/-- What the code does. -/
example : reply (command params plainLibrary [arrKind 0, eltKind 0] (arrKind 0) [1, 0] [0, 1] (push 0) pushWords (tower params 1).init) =
    some [some [97], some [98, 99], some [100]] := by decide +kernel

/-- The theorem applies to it; also in a program that has no memory for the second string. -/
example : ∃ w', Lives params w' (Envs.none 1) := by
  rcases c105_push_partial (p := params) (n := 0) (C := plainLibrary) rfl (c102_for_ever params_good 1) (objv := pushWords) order_two.1 order_two.2
    (xs := [str [97], str [98, 99]]) rfl (fun x hx => by
      rcases List.mem_cons.mp hx with rfl | hx
      · show (1 : Nat) < 2 ^ 31 - 1; decide
      · cases List.mem_singleton.mp hx; show (2 : Nat) < 2 ^ 31 - 1; decide) (show (1 : Nat) < 2 ^ 31 - 1 by decide) with ⟨w', _, h⟩ | ⟨w', _, h⟩
  · exact ⟨w', h⟩
  · exact ⟨w', h⟩

/-- `add` with too few words appends an empty string to an array that was made from a script. -/
example {w : Mem params 1} {B : Env (Slot UInt8)} (h : Lives params (n := 1) w (Envs.none 0, B)) (hB : B 0 = arr [str [97]]) :=
  c105_add (p := params) (n := 0) (C := plainLibrary) rfl h (g := 0) hB (objv := [.str [97]]) order_one order_one

end Bdlib.Deep
