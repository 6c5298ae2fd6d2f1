import Verif.Props.C105
import Verif.Props.C77

/-!
# C102, C105: objects with strings of 2^31 - 1 bytes and more

The conversions to Tcl check the length of a String and give a null pointer for a long one (`ScriptInterpTCL.h` 434-438), which
nobody looks at.
-/

namespace Bdlib.Deep
open Bdlib Bdlib.Spec Bdlib.Rca Bdlib.Tcl Bdlib.Hash

variable {p : Params} {n : Nat}

theorem giveAll_ub {c : Conf} {conv : Nat → Pg c.elt.Mem (Option Tcl.Obj)} {w : World c} {a : Nat} {T : Type} {xs : List T}
    {f : T → Tcl.Obj} {bad : T → Prop}
    (h : ∀ i z, xs[i]? = some z → ∃ u, cell c a i w = .ok u w ∧ ((bad z ∧ (conv u w.elts = .ub ∨ conv u w.elts = .ok none w.elts)) ∨
      ¬ bad z ∧ conv u w.elts = .ok (some (f z)) w.elts)) :
    ∀ (k i : Nat), i + k = xs.length → (∃ z ∈ xs.drop i, bad z) → giveAll c conv a i k w = .ub
  | 0, i, hk, hb => by
    rw [List.drop_eq_nil_of_le (by omega)] at hb
    obtain ⟨_, hz, _⟩ := hb
    cases hz
  | k + 1, i, hk, hb => by
    have hi : i < xs.length := by omega
    obtain ⟨u, hu, hc⟩ := h i _ (List.getElem?_eq_getElem hi)
    show Pg.bind (cell c a i) _ w = _
    unfold Pg.bind
    rw [hu]
    show Pg.bind (elts (conv u)) _ w = _
    unfold Pg.bind elts
    dsimp only
    rcases hc with ⟨_, hc | hc⟩ | ⟨hn, hc⟩
    · rw [hc]
    · rw [hc]; rfl
    · rw [hc]
      have ih := giveAll_ub h k (i + 1) (by omega) (by
        obtain ⟨z, hz, hbz⟩ := hb
        rw [List.drop_eq_getElem_cons hi] at hz
        rcases List.mem_cons.mp hz with rfl | hz
        · exact absurd hbz hn
        · exact ⟨z, hz, hbz⟩)
      show Pg.bind (giveAll c conv a (i + 1) k) _ w = _
      unfold Pg.bind
      rw [ih]

theorem holds_toTcl_long : ∀ {n : Nat} {w : Mem p n} {t : Nat} {y : Slot (Ty n)}, Holds p w t y → Known y → ¬ Short y →
    toTcl p n t w = if n = 0 then .ok none w else .ub
  | 0, w, t, y, h, hk, hlong => by
    obtain ⟨v, rfl⟩ := hk
    have h : Shows (T := UInt8) w t v := h
    have hlong : ¬ v.length < 2147483647 := hlong
    rw [if_pos rfl]
    refine ofM_ok (s := w) ?_
    show M.bind (Rca.length t) _ w = _
    unfold M.bind
    rw [h.1]
    dsimp only
    rw [if_neg hlong]
    rfl
  | n + 1, w, t, y, h, hk, hlong => by
    obtain ⟨xs, rfl, hk⟩ := hk
    have h : Rca.length t (World.arrs w) = .ok (List.length xs) (World.arrs w) ∧
        ∀ i z, xs[i]? = some z → ∃ u, cell (level p n) t i w = .ok u w ∧ Holds p (World.elts w) u z := h
    have hlong : ¬ ∀ x ∈ xs, Short x := hlong
    have hb : ∃ z ∈ xs.drop 0, ¬ Short z := by
      refine Classical.byContradiction fun hn => hlong fun x hx => Classical.byContradiction fun hs => hn ⟨x, hx, hs⟩
    rw [if_neg (Nat.succ_ne_zero n)]
    show Pg.bind (arrs (c := level p n) (Rca.length t)) _ w = _
    unfold Pg.bind arrs
    rw [h.1]
    have hg : giveAll (level p n) (toTcl p n) t 0 xs.length w = .ub :=
      giveAll_ub (c := level p n) (f := valueOf) (xs := xs) (bad := fun z => ¬ Short z) (fun i z hz => by
        obtain ⟨u, hu, hh⟩ := h.2 i z hz
        have hm := List.mem_of_getElem? hz
        refine ⟨u, hu, ?_⟩
        by_cases hs : Short z
        · exact .inr ⟨fun h => h hs, holds_toTcl hh (hk z hm) hs⟩
        · refine .inl ⟨hs, ?_⟩
          have := holds_toTcl_long hh (hk z hm) hs
          split at this
          · exact .inr this
          · exact .inl this) xs.length 0 (by omega) hb
    show Pg.bind (giveAll (level p n) (toTcl p n) t 0 xs.length) _ w = _
    unfold Pg.bind
    rw [show giveAll (level p n) (toTcl p n) t 0 xs.length w = _ from hg]
    rfl

/-- What is missing in `c102_to_script_partial`, exactly: an object with a string of 2^31 - 1 bytes or more somewhere in it.  A String
gives a null pointer; an array, of whatever depth, has undefined behaviour. -/
theorem c102_refuted_long {w : Mem p n} {E : Envs n} (h : Lives p w E) {t : Nat} (hk : Known (E.top t)) (hl : ¬ Short (E.top t)) :
    toTcl p n t w = if n = 0 then .ok none w else .ub :=
  holds_toTcl_long (lives_holds h (known_ne hk)) hk hl

theorem shown_toTcl_long : ∀ {i n : Nat} (q : At i n) {w : Mem p n} {E : Envs n} {t : Nat}, Shown p w E → Known (q.env E t) → ¬ Short (q.env E t) →
    q.lift (toTcl p i t) w = .ok none w ∨ q.lift (toTcl p i t) w = .ub
  | _, 0, .here, _, _, _, h, hk, hl => .inl (holds_toTcl_long (h _ (known_ne hk)) hk hl)
  | _, n + 1, .here, _, _, _, h, hk, hl => .inr (holds_toTcl_long (h.2 _ (known_ne hk)) hk hl)
  | _, n + 1, .up q, w, E, t, h, hk, hl => by
    rcases shown_toTcl_long q h.1 hk hl with h1 | h1
    · refine .inl ?_
      show elts (c := level p n) (q.lift (toTcl p _ t)) w = _
      unfold elts
      rw [h1]
      rfl
    · refine .inr ?_
      show elts (c := level p n) (q.lift (toTcl p _ t)) w = _
      unfold elts
      rw [h1]
      rfl

/-- A program that returns normally, with what holds then, and a program that is undefined whenever that holds. -/
theorem Goes.ub {I : Mem p n → Envs n → Prop} {α β : Type} {m : Pg (Mem p n) α} {s : Mem p n} {Q : α → All → Prop} {k : α → Pg (Mem p n) β}
    (h : Goes I m s Q) (hk : ∀ a s' V, Stands I s' V → Q a V → k a s' = .ub) : Pg.bind m k s = .ub := by
  unfold Goes Ends at h
  unfold Pg.bind
  cases hm : m s with
  | ub => rfl
  | throw e s' => rw [hm] at h; exact h.elim
  | ok a s' =>
    rw [hm] at h
    obtain ⟨V, h1, h2⟩ := h
    exact hk a s' V h2 h1

theorem bind_assoc {S α β γ : Type} (m : Pg S α) (f : α → Pg S β) (g : β → Pg S γ) (s : S) :
    Pg.bind (Pg.bind m f) g s = Pg.bind m (fun a => Pg.bind (f a) g) s := by
  unfold Pg.bind
  cases m s <;> rfl

/-- What is missing in `c105_command_partial`: a script calls a function without parameters that returns a new object, of any depth, with
a string of 2^31 - 1 bytes or more in it.  The behaviour is undefined: a null pointer is the result of the script or an element of a list. -/
theorem c105_refuted_long {C : Library} {w : Mem p n} {E : Envs n} (h : Lives p w E) (res : Kind n) {f : Body n}
    (hf : f.Meets p E (fun r V => Known (V ⟨res.depth, r⟩) ∧ ¬ Short (V ⟨res.depth, r⟩)) fun _ _ => False) (objv : List Tcl.Obj) :
    command p C [] res [] [] (fun _ => f) objv w = .ub := by
  have hI := lives_acts p (n := n)
  have main : Goes (fun w E => Lives p w E) (f.exec p) w
      (fun r V => Known (V ⟨res.depth, r⟩) ∧ ¬ Short (V ⟨res.depth, r⟩)) := by
    refine Ends.mono (Runs.exec hI f h hf) (fun _ _ h => h) ?_
    rintro _ _ ⟨_, h, _⟩
    exact h
  show Pg.bind (Pg.bind (f.exec p) _) _ w = _
  rw [bind_assoc]
  refine Goes.ub main ?_
  rintro r s V hr ⟨hk, hl⟩
  show Pg.bind (Pg.bind (res.pos.lift ((tower p res.depth).newMove r)) _) _ s = _
  rw [bind_assoc]
  refine Goes.ub (goes_newMove hI res.pos hr (known_ne hk)) ?_
  rintro z s1 V1 hr1 ⟨hz, rfl⟩
  have hne : (⟨res.depth, z⟩ : Name) ≠ ⟨res.depth, r⟩ := fun e => by
    have hz' := known_ne hk
    rw [show r = z by cases e; rfl] at hz'
    exact hz' hz
  show Pg.bind (Pg.bind (res.pos.lift ((tower p res.depth).delete r)) _) _ s1 = _
  rw [bind_assoc]
  refine Goes.ub (goes_delete hI res.pos hr1 (t := r) (by rw [All.upd_ne hne.symm, All.upd_self]; exact left_ne p _)) ?_
  rintro _ s2 V2 hr2 rfl
  obtain ⟨E2, hE2, hV2⟩ := hr2
  have hval : res.pos.env E2 z = V ⟨res.depth, r⟩ := by
    rw [← all_at res.pos, hV2, All.upd_ne hne, All.upd_self]
  show Pg.bind (res.pos.lift (toTcl p res.depth z)) _ s2 = _
  unfold Pg.bind
  rcases shown_toTcl_long res.pos (lives_sees _ _ hE2).1 (t := z) (by rw [hval]; exact hk) (by rw [hval]; exact hl) with h1 | h1
  · rw [h1]; rfl
  · rw [h1]

/-! ## Such an object can be made -/

/-- `String s(p, n);` returns if there is room for `n` bytes. -/
theorem string_lives (xs : List UInt8) (hx : xs.length + 1 < maxCells) : ∃ (w : Mem params 0) (t : Nat), Lives params w ((Envs.none 0).upd t (.val xs)) := by
  have hpre : Spec.Pre byteCfg (shared ({} : St UInt8)) Env.empty (.strCtor xs) := rfl
  have hd : Op.demand byteCfg.scale Env.empty (.strCtor xs : Op UInt8) = xs.length + 1 := by
    unfold Op.demand
    rw [if_neg (show ¬ Op.grows (.strCtor xs : Op UInt8) = true from fun h => by cases h)]
    rfl
  rcases c77_enough byteCfg_valid byteCfg_physical .init hpre (by
    intro g n hn
    rw [hd] at hn
    show decide (n < maxCells) = true
    rw [decide_eq_true_eq]
    omega) with ⟨x, s', env', h1, _⟩ | ⟨s', env', _, hpost, _⟩
  · rcases c102_from_script (p := params) rfl plainLibrary (c102_for_ever params_good 0) (.str xs) with ⟨t, w', h2, _, h3⟩ | ⟨w', h2, _⟩
    · exact ⟨w', t, h3⟩
    · have h2 : Pg.ofM (Rca.strCtor byteCfg 0 xs) ({} : St UInt8) = .throw .badAlloc w' := h2
      have h1 : M.bind (Rca.strCtor byteCfg 0 xs) (fun o => pure (.obj o)) ({} : St UInt8) = .ok x s' := h1
      unfold Pg.ofM at h2
      unfold M.bind at h1
      cases h4 : Rca.strCtor byteCfg 0 xs ({} : St UInt8) with
      | ok a s => rw [h4] at h2; cases h2
      | throw e s => rw [h4] at h1; cases h1
      | ub => rw [h4] at h1; cases h1
  · rcases hpost with ⟨o, _, h, _⟩ | ⟨h, _⟩ <;> cases h

/-- `String title() { return g; }` for a String `g` of the program. -/
def title (g : Nat) : Body 0 :=
  .call (.str (.copyCtor g)) fun
    | .ret (.here (.obj r)) => .ret r
    | .ret _ => .ret 0
    | .exc e => .raise e

theorem title_meets {E : Envs 0} {g : Nat} {v : List UInt8} (hg : E.top g = .val v) (hl : 2 ^ 31 - 1 ≤ v.length) :
    (title g).Meets p E (fun r V => Known (V ⟨0, r⟩) ∧ ¬ Short (V ⟨0, r⟩)) fun _ _ => False := by
  intro sh
  refine ⟨fun h => ?_, ?_⟩
  · have h : E.top g = .dead := h
    rw [hg] at h; cases h
  · rintro out E' ⟨o, ⟨r, _, rfl, hE'⟩, rfl⟩
    have hr : Envs.all (n := 0) E' ⟨0, r⟩ = .val v := by
      rw [all_at (n := 0) .here E' r]
      show E' r = .val v
      rw [hE']
      exact Env.upd_self.trans hg
    show Known (Envs.all (n := 0) E' ⟨0, r⟩) ∧ ¬ Short (Envs.all (n := 0) E' ⟨0, r⟩)
    rw [hr]
    exact ⟨⟨v, rfl⟩, fun h => by
      have h : v.length < 2 ^ 31 - 1 := h
      omega⟩

/-- A script calls it. -/
example : ∃ w : Mem params 0, ∃ g, command params plainLibrary [] ⟨0, .here⟩ [] [] (fun _ => title g) [] w = .ub := by
  obtain ⟨v, hv⟩ : ∃ v : List UInt8, v.length = 2147483648 := ⟨List.replicate 2147483648 97, List.length_replicate⟩
  obtain ⟨w, g, h⟩ := string_lives v (by rw [hv]; decide)
  exact ⟨w, g, c105_refuted_long h ⟨0, .here⟩ (title_meets (v := v) Env.upd_self (by rw [hv]; decide)) []⟩

end Bdlib.Deep
