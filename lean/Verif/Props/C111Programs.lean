import Verif.Props.C111
import Verif.Props.C111Split

/-!
# C111: programs of strings and arrays of strings in builds with assertions
-/

namespace Bdlib.Nest
open Bdlib Bdlib.Spec Bdlib.Rca Bdlib.Str
open P (strs arrs)

variable {c : Conf} {w : World} {es : Env UInt8} {ea : Env Elem} {lost : Nat}

theorem pbind_same {α β : Type} {m : P α} {f g : α → P β} (h : ∀ a w', m w = .ok a w' → f a w' = g a w') :
    (m >>= f) w = (m >>= g) w := by
  show P.bind m f w = P.bind m g w
  unfold P.bind
  cases hm : m w with
  | ok a w' => exact h a w' hm
  | throw e w' => rfl
  | ub => rfl

theorem pbind_eq {α β : Type} {m m' : P α} {f : α → P β} (h : m' w = m w) : (m' >>= f) w = (m >>= f) w := by
  show P.bind m' f w = P.bind m f w
  unfold P.bind
  rw [h]

/-- **C111** The assertion of copy-on-write for arrays of strings, in any state: as `Rca.c111_cow`. -/
theorem c111_cow (c : Conf) (o n : Nat) : aboutToModifyDebug c o n = aboutToModify c o n := by
  funext w
  unfold aboutToModifyDebug aboutToModify
  refine pbind_same fun ob w1 _ => pbind_same fun _ w2 _ => pbind_same fun x w3 h => ?_
  cases x with
  | false => rfl
  | true =>
    obtain ⟨A, h1, rfl⟩ := arrs_inv h
    have := isShared_state h1
    subst A
    show cowDebug c o n w2 = cow c o n w2
    unfold cowDebug
    rw [pbind_ok (arrs_ok h1)]
    rfl

theorem view_arr {C : Nat → Prop} {env : Env UInt8} (hV : View c w es ea lost C env) {a : Nat} (h : ea.Has a ∧ ea.get a ≠ []) :
    ∃ ob, w.arrs.obj a = some ob ∧ ob.sublen ≠ 0 := by
  obtain ⟨⟨v, hv⟩, hne⟩ := h
  have hne : v ≠ [] := by unfold Env.get at hne; rw [hv] at hne; exact hne
  have h1 := (hV.arr a v hv).1
  unfold Rca.length at h1
  obtain ⟨ob, A, h2, h3⟩ := bind_inv h1
  obtain ⟨rfl, h4⟩ := getObj_inv h2
  have h5 : ob.sublen = v.length := by injection h3
  exact ⟨ob, h4, fun h0 => hne (List.eq_nil_of_length_eq_zero (by omega))⟩

theorem shiftDebug_eq {a : Nat} {oa : Obj} (h : w.arrs.obj a = some oa) (hn : oa.sublen ≠ 0) : shiftDebug c a w = shift c a w := by
  unfold shiftDebug
  rw [pbind_ok (arrs_ok (length_of h)), decide_eq_true hn]
  rfl

theorem takeCell_arrs {a i t : Nat} {w' : World} (h : takeCell c a i w = .ok t w') : w'.arrs = w.arrs := by
  unfold takeCell at h
  obtain ⟨u, w1, h1, h2⟩ := pbind_inv h
  have := cell_inv h1
  subst w1
  obtain ⟨b, w2, h3, h4⟩ := pbind_inv h2
  obtain ⟨A, h5, rfl⟩ := arrs_inv h3
  have := isShared_state h5
  subst A
  cases b with
  | true => obtain ⟨S, _, rfl⟩ := strs_inv (show strs _ _ = _ from h4); rfl
  | false => obtain ⟨S, _, rfl⟩ := strs_inv (show strs _ _ = _ from h4); rfl

theorem popDebug_eq {a : Nat} {oa : Obj} (h : w.arrs.obj a = some oa) (hn : oa.sublen ≠ 0) : popDebug c a w = pop c a w := by
  unfold popDebug pop
  rw [pbind_ok (arrs_ok (length_of h)), decide_eq_true hn]
  show (arrs (getObj a) >>= _) w = _
  refine pbind_same fun ob w1 h1 => pbind_same fun t w2 h2 => ?_
  obtain ⟨A, h3, rfl⟩ := arrs_inv h1
  obtain ⟨rfl, h4⟩ := getObj_inv h3
  have hA := takeCell_arrs h2
  refine pbind_eq ?_
  have := (Rca.c111_take (T := Nat) c.hnd (s := w2.arrs) (o := a) (ob := oa) (by rw [hA]; exact h) hn).1
  unfold P.arrs
  rw [this]

/-- **C111** In every state that programs of strings and arrays of strings can produce, a further call within its contract does
the same with assertions as without, whatever `c` says about memory. -/
theorem c111_array_calls (hc : c.Good) (h : All c w es ea lost) {k : Call} (hpre : Pre c (shared w.strs) (shared w.arrs) es ea k) :
    runDebug c k w = run c k w := by
  obtain ⟨C, env, hV⟩ := all_view hc h
  have hes : ∀ o, es.Has o ∧ es.get o ≠ [] → env.Has o ∧ env.get o ≠ [] := by
    rintro o ⟨⟨v, hv⟩, hne⟩
    have := (hV.val hv).1
    refine ⟨⟨v, this⟩, ?_⟩
    unfold Env.get at hne ⊢
    rw [this]
    rw [hv] at hne
    exact hne
  cases k with
  | str op =>
    refine pbind_eq ?_
    unfold P.strs
    rw [Rca.runDebug_eq]
    rintro o (rfl | rfl | rfl) <;> exact Rca.reach_take hV.reach (hes o hpre)
  | arr op =>
    cases op with
    | popBack o =>
      obtain ⟨oa, h1, h2⟩ := view_arr hV hpre.2
      have := (Rca.c111_take (T := Nat) c.hnd h1 h2).1
      show (arrs (Rca.popBackDebug o) >>= _) w = ((do arrs (Rca.popBack o); return .unit : P (Out Elem)) >>= _) w
      show P.bind _ _ w = P.bind (P.bind _ _) _ w
      unfold P.bind P.arrs
      rw [this]
      cases Rca.popBack o w.arrs <;> rfl
    | _ => rfl
  | shift a =>
    obtain ⟨oa, h1, h2⟩ := view_arr hV hpre
    exact pbind_eq (shiftDebug_eq h1 h2)
  | pop a =>
    obtain ⟨oa, h1, h2⟩ := view_arr hV hpre
    exact pbind_eq (popDebug_eq h1 h2)
  | modify a i op =>
    refine pbind_eq ?_
    obtain ⟨⟨xs, hxs⟩, hi, hop⟩ := hpre
    have hget : ea.get a = xs := by unfold Env.get; rw [hxs]
    rw [hget] at hi hop
    unfold modifyDebug modify
    refine pbind_same fun _ w1 h1 => pbind_same fun t w2 h2 => ?_
    have := cell_inv h2
    subst w2
    obtain ⟨out, w', es', ea', p1, p2, p3⟩ := all_step hc h (call := .arr (.begin a)) ⟨trivial, xs, hxs⟩
    have hrun : run c (.arr (.begin a)) w = .ok (.a .unit) w1 := by
      show ((getOwnCopy c a >>= fun _ => pure Out.unit) >>= _) w = _
      rw [pbind_ok (show (getOwnCopy c a >>= fun _ => pure Out.unit : P (Out Elem)) w = .ok .unit w1 by
        rw [pbind_ok h1]; rfl)]
      rfl
    rw [hrun] at p1
    cases p1
    obtain ⟨o, q1, q2, rfl⟩ := p2
    cases o with
    | exc e => cases q2
    | ret x =>
      obtain ⟨_, rfl⟩ | q3 := q1
      rotate_left
      · cases q3.1
      obtain ⟨C', env', hV'⟩ := all_view hc p3
      obtain ⟨u, r1, r2, r3⟩ := (hV'.arr a xs hxs).2 i _ (List.getElem?_eq_getElem hi)
      rw [h2] at r1
      injection r1 with r1
      subst u
      have hd : es' t = .dead := by rw [hV'.mine, cut_in r2]
      unfold P.strs
      rw [Rca.runDebug_eq]
      intro o ho
      have hp := (hop t _ (fun _ => false) hd (List.getElem?_eq_getElem hi)).1
      have hp : (es'.upd t xs[i]).Has o ∧ (es'.upd t xs[i]).get o ≠ [] := by
        rcases ho with e | e | e <;> rw [e] at hp <;> exact hp
      refine Rca.reach_take hV'.reach ?_
      obtain ⟨⟨v, hv⟩, hne⟩ := hp
      have : env' o = .val v := by
        by_cases e : o = t
        · subst o
          rw [r3, ← hv, Env.upd_self]
        · rw [Env.upd_ne e] at hv
          exact (hV'.val hv).1
      refine ⟨⟨v, this⟩, ?_⟩
      unfold Env.get at hne ⊢
      rw [this]
      rw [hv] at hne
      exact hne
  | _ => rfl

/-- The same for the functions built on them. -/
theorem c111_acts (hc : c.Good) (h : All c w es ea lost) {L : Libc} {fuel : Nat} {act : Act}
    (hpre : act.Pre c (shared w.strs) (shared w.arrs) es ea) : act.runDebug c L fuel w = act.run c L fuel w := by
  cases act with
  | call k => exact pbind_eq (c111_array_calls hc h hpre)
  | split s d limit =>
    obtain ⟨_, v, _, hs, _⟩ := hpre
    exact pbind_eq (c111_split hc h hs L fuel d limit)
  | popTo a t =>
    obtain ⟨C, env, hV⟩ := all_view hc h
    obtain ⟨oa, h1, h2⟩ := view_arr hV ⟨hpre.1, hpre.2.1⟩
    refine pbind_eq ?_
    unfold popToDebug popTo
    exact pbind_eq (popDebug_eq h1 h2)
  | _ => rfl

theorem acts_debug {L : Libc} {fuel : Nat} (hP : Plat c L fuel) : ∀ (n : Nat) {w : World} {es : Env UInt8} {ea : Env Elem}
    {lost : Nat}, All c w es ea lost → ActsDebug c L fuel n w es ea lost
  | 0, _, _, _, _, h => all_sees hP.good h
  | n + 1, _, _, _, _, h => ⟨all_sees hP.good h, fun _ hpre => by
      obtain ⟨out, w', es', ea', h1, h2, h3⟩ := all_act hP h hpre
      exact ⟨out, w', es', ea', by rw [c111_acts hP.good h hpre]; exact h1, h2, acts_debug hP n h3⟩⟩

/-- **C111 (partial)** In a build with assertions any program of strings and arrays of strings, of any length, whose calls are
within their contracts, is stopped by none of them and does what the same program does without them: each call has the
effect that the specification says.  Missing: several threads (`Conc.c111_refuted_cow`, `Conc.c111_refuted_split`). -/
theorem c111_programs_partial {L : Libc} {fuel : Nat} (hP : Plat c L fuel) (n : Nat) :
    ActsDebug c L fuel n {} Env.empty Env.empty 0 :=
  acts_debug hP n all_init

-- Non-vacuity: the C library of `Props/C76.lean`, and the program `csv` there, which splits, joins, copies and pops.
example (n : Nat) : ActsDebug conf glibc 2147483648 n {} Env.empty Env.empty 0 := c111_programs_partial (glibc_plat (by decide)) n

/-- Some acts in a build with assertions. -/
def runActsDebug (c : Conf) (L : Libc) (fuel : Nat) : List Act → World → Option World
  | [], w => some w
  | k :: ks, w => (k.result (k.runDebug c L fuel w)).bind fun r => runActsDebug c L fuel ks r.2

example : ((runActsDebug conf glibc 9 csv {}).bind fun w => elemsOf w 1) = some [some [97]] := by decide +kernel
example : ((runActsDebug conf glibc 9 csv {}).bind fun w => bytesOf w 0) = some [98] := by decide +kernel

-- Taking the character off the last string of the array (`b.begin()[0].pop_back()`) is within the contract once ...
example : ((runActsDebug conf glibc 9 (csv ++ [.call (.modify 1 0 (.popBack ·))]) {}).bind fun w => elemsOf w 1) = some [some []] := by
  decide +kernel
-- ... and not twice: the program is stopped, where without assertions it goes on with a string of `2^64 - 1` characters.
example : runActsDebug conf glibc 9 (csv ++ [.call (.modify 1 0 (.popBack ·)), .call (.modify 1 0 (.popBack ·))]) {} = none ∧
    (runActs conf glibc 9 (csv ++ [.call (.modify 1 0 (.popBack ·)), .call (.modify 1 0 (.popBack ·))]) {}).isSome = true := by
  constructor <;> decide +kernel

end Bdlib.Nest
