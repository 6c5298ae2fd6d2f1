import Verif.Nest.Acts
import Verif.Props.C75

/-!
# C76: split, join, searches, comparisons and hashes of arrays of strings

The programs of C75 may in addition split strings into arrays, join arrays into strings, search, compare and hash
arrays.  All of it runs on the two memories: pieces share the storage of the string they were cut from, arrays grow
while they are filled, temporaries are destroyed, and memory may run out anywhere.  The specification
(`Nest/TextSpec.lean`) only knows values.
-/

namespace Bdlib.Nest
open Bdlib Bdlib.Spec Bdlib.Rca Bdlib.Str

variable {c : Conf} {L : Libc} {fuel : Nat} {w : World} {es : Env UInt8} {ea : Env Elem} {n lost : Nat}

/-- Every program: whatever it does, each act is defined, has the effect the specification says, including exceptions
when either memory is exhausted, and everything can be observed as specified, always.

Partial: needs `memmem` (C28), delimiters that are not empty and strings of fewer than 2^31 characters for `split`,
elements whose value is known (not moved from) for searches, comparisons, hashes and `join`, and for `join` the
conditions of C35; for the assertions of `split` see C111. -/
theorem c76_programs_partial (hP : Plat c L fuel) (n : Nat) : Acts c L fuel n {} Env.empty Env.empty 0 :=
  all_acts hP n all_init

/-! ## In particular -/

/-- `split` changes no string and no array that existed before, and either makes a new array of the pieces or fails. -/
theorem c76_split_partial (h : Acts c L fuel (n + 1) w es ea lost) {s d limit : Nat} {v x : Bytes} (hs : es s = .val v)
    (hd : es d = .val x) (hx : x ≠ []) (hv : v.length < 2147483648) (hl : limit ≤ npos) :
    (∃ w' a ps, split c L fuel s d limit w = .ok a w' ∧ ea a = .dead ∧ Pieces v x limit ps ∧
      Acts c L fuel n w' es (ea.upd a (.val (elems ps))) lost) ∨
    ∃ w', split c L fuel s d limit w = .throw .badAlloc w' ∧ Acts c L fuel n w' es ea lost := by
  obtain ⟨out, w', es', ea', h1, ⟨h2, h3⟩, h4⟩ := h.2 (.split s d limit) ⟨hl, v, x, hs, hd, hx, hv⟩
  subst es'
  rw [get_val hs, get_val hd] at h3
  have hb : Act.run c L fuel (.split s d limit) w = P.bind (split c L fuel s d limit) (fun a => Pure.pure (.made a)) w := rfl
  rw [hb] at h1
  unfold P.bind at h1
  cases hm : split c L fuel s d limit w with
  | ub => rw [hm] at h1; cases h1
  | ok a w1 =>
    rw [hm] at h1
    cases h1
    rcases h3 with ⟨h3, _⟩ | ⟨a', ps, h3, h5, h6, rfl⟩
    · cases h3
    · cases h3
      exact .inl ⟨w', a, ps, rfl, h5, h6, h4⟩
  | throw e w1 =>
    rw [hm] at h1
    cases h1
    rcases h3 with ⟨h3, rfl⟩ | ⟨a', ps, h3, _⟩
    · cases h3
      exact .inr ⟨w', rfl, h4⟩
    · cases h3

/-- `join` changes no string and no array, and either makes a new string of the elements or fails. -/
theorem c76_join_partial (h : Acts c L fuel (n + 1) w es ea lost) {a d : Nat} {quoted : Bool} {vs : List Bytes} {x : Bytes}
    (ha : ea a = .val (elems vs)) (hd : es d = .val x)
    (hsize : vs.length * x.length + vs.length * 2 + (vs.map List.length).sum < maxCells)
    (hne : vs = [] ∨ x ≠ [] ∨ quoted = true ∨ ∃ v ∈ vs, v ≠ []) :
    (∃ w' t, join c a d quoted w = .ok t w' ∧ es t = .dead ∧
      Acts c L fuel n w' (es.upd t (.val (x.intercalate (vs.map (shown quoted))))) ea lost) ∨
    ∃ w', join c a d quoted w = .throw .badAlloc w' ∧ Acts c L fuel n w' es ea lost := by
  obtain ⟨out, w', es', ea', h1, ⟨h2, h3⟩, h4⟩ := h.2 (.join a d quoted) ⟨vs, x, ha, hd, hsize, hne⟩
  subst ea'
  rw [get_val hd] at h3
  have hb : Act.run c L fuel (.join a d quoted) w = P.bind (join c a d quoted) (fun a => Pure.pure (.made a)) w := rfl
  rw [hb] at h1
  unfold P.bind at h1
  cases hm : join c a d quoted w with
  | ub => rw [hm] at h1; cases h1
  | ok t w1 =>
    rw [hm] at h1
    cases h1
    rcases h3 with ⟨h3, _⟩ | ⟨t', us, h3, h5, h6, rfl⟩
    · cases h3
    · cases h3
      rw [ha] at h6
      cases elems_inj (Slot.val.inj h6)
      exact .inl ⟨w', t, rfl, h5, h4⟩
  | throw e w1 =>
    rw [hm] at h1
    cases h1
    rcases h3 with ⟨h3, rfl⟩ | ⟨t', us, h3, _⟩
    · cases h3
      exact .inr ⟨w', rfl, h4⟩
    · cases h3

/-- `s.split(d).join(d)`, with the array kept: a new string that is `s` up to one delimiter at the end, unless memory
runs out on the way; `s`, `d` and everything else are as before. -/
theorem c76_split_join_partial (h : Acts c L fuel (n + 2) w es ea lost) {s d : Nat} {v x : Bytes} (hs : es s = .val v)
    (hd : es d = .val x) (hx : x ≠ []) (hsp : x ≠ [32]) (hv : v.length < 2147483648) (hxl : x.length < 2147483648) :
    (∃ w1 w2 a t ps r, split c L fuel s d npos w = .ok a w1 ∧ join c a d false w1 = .ok t w2 ∧ (r = v ∨ r ++ x = v) ∧
      (∀ p ∈ ps, ¬ Occurs x p) ∧ Acts c L fuel n w2 (es.upd t (.val r)) (ea.upd a (.val (elems ps))) lost) ∨
    (∃ w1, split c L fuel s d npos w = .throw .badAlloc w1) ∨
    ∃ w1 w2 a, split c L fuel s d npos w = .ok a w1 ∧ join c a d false w1 = .throw .badAlloc w2 := by
  rcases c76_split_partial h hs hd hx hv (Nat.le_refl _) with ⟨w1, a, ps, h1, h2, h3, h4⟩ | ⟨w1, h1, _⟩
  rotate_left
  · exact .inr (.inl ⟨w1, h1⟩)
  have hcut : Cut x v ps := by
    unfold Pieces at h3
    by_cases h0 : v = []
    · subst h0
      rw [if_pos rfl] at h3
      subst h3
      exact .nil
    · rw [if_neg h0, if_neg (by decide), if_pos rfl, if_neg hsp] at h3
      exact h3
  obtain ⟨h5, h6⟩ := cut_join hx hcut
  have hlen : ∀ {ps : List Bytes}, (x.intercalate ps).length + x.length ≥ ps.length * x.length + (ps.map List.length).sum := by
    intro ps
    by_cases hps : ps = []
    · subst hps; simp
    · have := congrArg List.length (closed_intercalate x hps)
      rw [List.length_append] at this
      rw [← this]
      clear this hps
      induction ps with
      | nil => simp
      | cons p ps ih =>
        simp only [closed, List.map_cons, List.flatten_cons, List.length_append, List.length_cons, List.sum_cons, Nat.add_mul, Nat.one_mul] at ih ⊢
        omega
  have hsize : ps.length * x.length + ps.length * 2 + (ps.map List.length).sum < maxCells := by
    have h7 := hlen (ps := ps)
    have h8 : (x.intercalate ps).length ≤ v.length := by
      rcases h6 with h6 | h6
      · rw [h6]; exact Nat.le_refl _
      · rw [← h6, List.length_append]; omega
    have h9 : x.length ≥ 1 := by
      have : x.length ≠ 0 := fun h => hx (List.length_eq_zero_iff.mp h)
      omega
    have h10 : ps.length ≤ ps.length * x.length := Nat.le_mul_of_pos_right _ h9
    unfold maxCells
    omega
  rcases c76_join_partial h4 (quoted := false) (Env.upd_self ..) hd hsize (.inr (.inl hx)) with ⟨w2, t, h7, h8, h9⟩ | ⟨w2, h7, _⟩
  · refine .inl ⟨w1, w2, a, t, ps, _, h1, h7, ?_, h5, h9⟩
    have : ps.map (shown false) = ps := by
      have : shown false = id := by funext y; rfl
      rw [this, List.map_id]
    rw [this]
    exact h6
  · exact .inr (.inr ⟨w1, w2, a, h1, h7⟩)

/-- Arrays that compare equal have equal hashes, as containers need. -/
theorem c76_equal_hash (h : Acts c L fuel (n + 3) w es ea lost) {a b : Nat} {vs us : List Bytes} (ha : ea a = .val (elems vs))
    (hb : ea b = .val (elems us)) : ∃ r w1 x w2 y w3, eq L a b w = .ok r w1 ∧ hash c a w1 = .ok x w2 ∧ hash c b w2 = .ok y w3 ∧
      (r = true → x = y) ∧ (r = true ↔ vs = us) ∧ Acts c L fuel n w3 es ea lost := by
  obtain ⟨out, w1, es1, ea1, h1, ⟨rfl, rfl, vs', us', ha', hb', rfl⟩, h2⟩ := h.2 (.eq a b) ⟨vs, us, ha, hb⟩
  rw [ha] at ha'; cases elems_inj (Slot.val.inj ha')
  rw [hb] at hb'; cases elems_inj (Slot.val.inj hb')
  have okEq : ∃ r, eq L a b w = .ok r w1 ∧ r = decide (vs = us) := by
    rw [show Act.run c L fuel (.eq a b) w = P.bind (eq L a b) (fun r => Pure.pure (.flag r)) w from rfl] at h1
    unfold P.bind at h1
    cases hm : eq L a b w with
    | ub => rw [hm] at h1; cases h1
    | ok r w' => rw [hm] at h1; cases h1; exact ⟨_, rfl, rfl⟩
    | throw e w' => rw [hm] at h1; cases h1
  have step : ∀ {n w o vs}, Acts c L fuel (n + 1) w es1 ea1 lost → ea1 o = .val (elems vs) →
      ∃ x w', hash c o w = .ok x w' ∧ x.toNat = djb (fun v => djb (fun x => (c.str.hasher x).toNat) v) vs ∧
        Acts c L fuel n w' es1 ea1 lost := by
    intro n w o vs h ho
    obtain ⟨out, w1, es1, ea1, h1, ⟨rfl, rfl, vs', ha', rfl⟩, h2⟩ := h.2 (.hash o) ⟨vs, ho⟩
    rw [ho] at ha'; cases elems_inj (Slot.val.inj ha')
    rw [show Act.run c L fuel (.hash o) w = P.bind (hash c o) (fun r => Pure.pure (.num r.toNat)) w from rfl] at h1
    unfold P.bind at h1
    cases hm : hash c o w with
    | ub => rw [hm] at h1; cases h1
    | ok r w' =>
      rw [hm] at h1
      have h3 := Option.some.inj h1
      have h4 := congrArg Prod.snd h3
      have h5 := End.num.inj (congrArg Prod.fst h3)
      dsimp only at h4 h5
      subst h4
      exact ⟨r, w', rfl, h5, h2⟩
    | throw e w' => rw [hm] at h1; cases h1
  obtain ⟨r, h3, h4⟩ := okEq
  obtain ⟨x, w2, h5, h6, h7⟩ := step h2 ha
  obtain ⟨y, w3, h8, h9, h10⟩ := step h7 hb
  refine ⟨r, w1, x, w2, y, w3, h3, h5, h8, fun hr => ?_, by rw [h4, decide_eq_true_iff], h10⟩
  rw [h4, decide_eq_true_iff] at hr
  subst hr
  exact UInt64.toNat_inj.1 (h6.trans h9.symm)

/-! ## A program -/

theorem glibc_plat {fuel : Nat} (h : maxInt < fuel) : Plat conf glibc fuel := ⟨conf_good, rfl, glibc_ok, rfl, h⟩

/-- The state after some acts, if all are defined. -/
def runActs (c : Conf) (L : Libc) (fuel : Nat) : List Act → World → Option World
  | [], w => some w
  | k :: ks, w => (k.result (k.run c L fuel w)).bind fun r => runActs c L fuel ks r.2

/-- The last of some acts. -/
def lastAct (c : Conf) (L : Libc) (fuel : Nat) (ks : List Act) (k : Act) : Option End :=
  (runActs c L fuel ks {}).bind fun w => (k.result (k.run c L fuel w)).map (·.1)

/-- `String s("a,b,"), d(","); Array<String> a(s.split(d)); String t(a.join(d, true)); Array<String> b(a); b >> s;` -/
def csv : List Act :=
  [.call (.str (.strCtor [97, 44, 98, 44])), .call (.str (.strCtor [44])), .split 0 1 npos, .join 0 1 true,
    .call (.arr (.copyCtor 0)), .popTo 1 0]

deriving instance DecidableEq for End

/-- What the code does: `a` is `{"a", "b"}`, the joined string is `"a","b"` with the quotes; `b` is `{"a"}` and `s` is `"b"`. -/
example : ((runActs conf glibc 9 csv {}).bind fun w => elemsOf w 0) = some [some [97], some [98]] := by decide +kernel
example : ((runActs conf glibc 9 csv {}).bind fun w => elemsOf w 1) = some [some [97]] := by decide +kernel
example : ((runActs conf glibc 9 csv {}).bind fun w => bytesOf w 0) = some [98] := by decide +kernel
example : lastAct conf glibc 9 csv (.find 0 0) = some (.num 1) := by decide +kernel
example : lastAct conf glibc 9 csv (.find 1 0) = some (.num npos) := by decide +kernel
example : lastAct conf glibc 9 csv (.findFrom 1 0 2) = some (.exc .outOfRange) := by decide +kernel
example : lastAct conf glibc 9 csv (.eq 0 1) = some (.flag false) := by decide +kernel
example : lastAct conf glibc 9 csv (.equals 0 0 1) = some (.flag true) := by decide +kernel

/-- The hypotheses of the theorems above are met, with any number of acts to come: `String s("a,b,"), d(",");`. -/
theorem c76_reached (n : Nat) : ∃ w es ea, Acts conf glibc 2147483648 n w es ea 0 ∧ es 0 = .val [97, 44, 98, 44] ∧ es 1 = .val [44] := by
  have step : ∀ {n w es ea} {op : Op UInt8} {t : Nat}, Acts conf glibc 2147483648 (n + 1) w es ea 0 →
      (∃ w', Act.result (.call (.str op)) (Act.run conf glibc 2147483648 (.call (.str op)) w) = some (.called (.ret (.s (.obj t))), w')) →
      Spec.Pre conf.str (shared w.strs) es op →
      ∃ w' es', Act.result (.call (.str op)) (Act.run conf glibc 2147483648 (.call (.str op)) w) = some (.called (.ret (.s (.obj t))), w') ∧
        Spec.Post conf.str (shared w.strs) es op (.ret (.obj t)) es' ∧ Acts conf glibc 2147483648 n w' es' ea 0 := by
    intro n w es ea op t h ⟨w', hw⟩ hpre
    obtain ⟨out, w1, es1, ea1, h1, ⟨x, rfl, o, h2, rfl, rfl⟩, h3⟩ := h.2 (.call (.str op)) hpre
    rw [hw] at h1
    have h4 := Option.some.inj h1
    have h5 := congrArg Prod.snd h4
    have h6 := End.called.inj (congrArg Prod.fst h4)
    dsimp only at h5 h6
    subst h5
    cases o with
    | exc e => cases h6
    | ret y =>
      cases h6
      exact ⟨_, es1, hw, h2, h3⟩
  have some_of : ∀ {k : Act} {w : World} {x : End}, (k.result (k.run conf glibc 2147483648 w)).map (·.1) = some x →
      ∃ w', k.result (k.run conf glibc 2147483648 w) = some (x, w') := by
    intro k w x h
    cases hr : k.result (k.run conf glibc 2147483648 w) with
    | none => rw [hr] at h; cases h
    | some p => rw [hr] at h; cases h; exact ⟨p.2, rfl⟩
  have a2 : lastAct conf glibc 2147483648 [.call (.str (.strCtor [97, 44, 98, 44]))] (.call (.str (.strCtor [44]))) =
    some (.called (.ret (.s (.obj 1)))) := by decide +kernel
  obtain ⟨w1, es1, r1, p1, h1⟩ := step (c76_programs_partial (glibc_plat (fuel := 2147483648) (by decide)) (n + 2))
    (op := .strCtor [97, 44, 98, 44]) (t := 0) (some_of (by decide +kernel)) rfl
  unfold lastAct runActs at a2
  rw [r1] at a2
  obtain ⟨w2, es2, r2, p2, h2⟩ := step h1 (op := .strCtor [44]) (t := 1) (some_of a2) rfl
  refine ⟨w2, es2, _, h2, ?_⟩
  rcases p1 with ⟨_, _, e, rfl⟩ | ⟨e, _⟩
  rotate_left
  · cases e
  cases e
  rcases p2 with ⟨_, _, e, rfl⟩ | ⟨e, _⟩
  rotate_left
  · cases e
  cases e
  exact ⟨rfl, rfl⟩

end Bdlib.Nest
