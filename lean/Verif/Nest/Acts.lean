import Verif.Nest.Hash
import Verif.Props.C29

/-!
# Programs that split, join, search, compare and hash: every program

Each act keeps `All`, the invariant of `Nest/Play.lean`.
-/

namespace Bdlib.Nest
open Bdlib Bdlib.Spec Bdlib.Rca Bdlib.Str

variable {c : Conf} {w : World} {es : Env UInt8} {ea : Env Elem} {lost : Nat}

theorem elems_inj : ∀ {vs us : List Bytes}, elems vs = elems us → vs = us
  | [], [], _ => rfl
  | v :: vs, u :: us, h => by
    unfold elems at h
    simp only [List.map_cons, List.cons.injEq, Slot.val.injEq] at h
    rw [h.1, elems_inj h.2]
  | [], _ :: _, h => by cases h
  | _ :: _, [], h => by cases h

/-- The function on values gives the pieces of the specification. -/
theorem split_pieces {L : Libc} (hL : L.Ok) (hm : L.memmem = true) {v d : Bytes} (hd : d ≠ []) (hv : v.length ≤ maxInt) {limit : Nat}
    (hlim : limit ≤ npos) {fuel : Nat} (hf : v.length < fuel) : ∃ ps, Str.split L fuel v d limit = .ret ps ∧ Pieces v d limit ps := by
  unfold Pieces
  by_cases h0 : v = []
  · subst h0
    exact ⟨[], c28_split_empty .., by rw [if_pos rfl]⟩
  simp only [if_neg h0]
  by_cases h1 : limit = 1
  · subst h1
    exact ⟨[v], c28_split_one _ _ _ h0, by rw [if_pos rfl]⟩
  simp only [if_neg h1]
  by_cases h2 : limit = npos
  · subst h2
    simp only [if_true]
    by_cases h3 : d = [32]
    · subst h3
      simp only [if_true]
      exact c29_words_partial hL hm hv fuel hf
    · simp only [if_neg h3]
      obtain ⟨ps, h4, h5, _⟩ := c28_split_partial hL hm hv hd h3 fuel hf
      exact ⟨ps, h4, h5⟩
  · simp only [if_neg h2]
    by_cases h3 : d = [32]
    · subst h3
      simp only [if_true]
      exact c29_words_at_most_partial hL hm hv h0 h1 (by omega) fuel hf
    · simp only [if_neg h3]
      exact c28_split_at_most_partial hL hm hv hd h3 h0 h1 (by omega) fuel hf

theorem strs_map {m : M UInt8 Unit} {op : Op UInt8} (h : Rca.run c.str op = mapOut m fun _ => .unit) :
    run c (.str op) = (do P.strs m; Pure.pure (Ans.s .unit)) := by
  show (do let x ← P.strs (Rca.run c.str op); Pure.pure (Ans.s x)) = _
  rw [h]
  funext w
  show P.bind (P.strs (M.bind m _)) _ w = P.bind (P.strs m) _ w
  unfold P.bind P.strs M.bind
  cases m w.strs <;> rfl

theorem ends_popTo (hc : c.Good) (h : All c w es ea lost) {a s : Nat} (ha : ea.Has a) (hne : ea.get a ≠ []) (hs : es.Live s) :
    Ends c lost (popTo c a s) w (fun _ es' ea' => ∃ xs y, ea a = .val (xs ++ [y]) ∧ es' = es.upd s y ∧ ea' = ea.upd a (.val xs))
      (fun _ _ _ => False) := by
  obtain ⟨xs, hx⟩ := ha
  have hget : ea.get a = xs := by unfold Env.get; rw [hx]
  rw [hget] at hne
  have hlast : xs.dropLast ++ [xs.getLast hne] = xs := List.dropLast_concat_getLast hne
  unfold popTo
  refine Ends.bind (Q' := fun t es' ea' => es t = .dead ∧ es' = es.upd t (xs.getLast hne) ∧ ea' = ea.upd a (.val xs.dropLast))
    (ends_call hc h (call := .pop a) (f := fun t => .s (.obj t)) rfl (fun _ => rfl) ⟨⟨xs, hx⟩, by rw [hget]; exact hne⟩ ?_ ?_)
    fun t w1 es1 ea1 h1 ⟨hd, e1, e2⟩ => ?_
  · rintro t es' ea' (⟨t', y, hd, ⟨h1, h2⟩, h3, h4⟩ | ⟨e, _, h2, _⟩)
    · cases h3
      rw [hget, List.getLast?_eq_some_getLast hne] at h1
      cases h1
      rw [hget] at h2
      exact ⟨hd, h4, h2⟩
    · cases h2
  · rintro e es' ea' (⟨t', y, hd, _, h3, _⟩ | ⟨e, ⟨h1, _⟩, _, _⟩)
    · cases h3
    · cases h1
  · subst es1 ea1
    have hlive : (es.upd t (xs.getLast hne)).Live t := by
      intro hdead
      rw [Env.upd_self] at hdead
      obtain ⟨C, env, hV⟩ := all_view hc h
      have hi : xs.length - 1 < xs.length := by
        have : xs.length ≠ 0 := fun h => hne (List.length_eq_zero_iff.mp h)
        omega
      obtain ⟨u, _, hC, hu⟩ := (hV.arr a xs hx).2 (xs.length - 1) _ (List.getElem?_eq_getElem hi)
      rw [List.getLast_eq_getElem] at hdead
      exact hV.live u hC (hu.trans hdead)
    have hst : s ≠ t := fun e => hs (e ▸ hd)
    refine Ends.bind (Q' := fun _ es' ea' => es' = ((es.upd t (xs.getLast hne)).upd t (movedSlot c.str)).upd s (xs.getLast hne) ∧
      ea' = ea.upd a (.val xs.dropLast)) (ends_call hc h1 (call := .str (.moveAssign s t)) (f := fun _ => .s .unit) (strs_map rfl) (fun _ => rfl)
        ⟨by unfold Env.Live; rw [Env.upd_ne hst]; exact hs, hlive⟩ ?_ ?_) fun _ w2 es2 ea2 h2 ⟨e1, e2⟩ => ?_
    · rintro _ es' ea' ⟨o, ⟨rfl, h2⟩, h3, rfl⟩
      rw [if_neg hst, Env.upd_self] at h2
      exact ⟨h2, rfl⟩
    · rintro e es' ea' ⟨o, ⟨rfl, h2⟩, h3, rfl⟩
      cases h3
    · subst es2 ea2
      refine Ends.mono (ends_delete hc h2 ?_ (E := fun _ _ _ => False)) (fun _ es' ea' ⟨e1, e2⟩ => ⟨_, _, by rw [hlast]; exact hx, ?_, e2⟩) fun _ _ _ h => h
      · intro hdead
        rw [Env.upd_ne (Ne.symm hst), Env.upd_self] at hdead
        unfold movedSlot at hdead
        split at hdead <;> cases hdead
      · rw [e1, Env.upd_upd]
        funext x
        by_cases hx : x = t
        · subst hx; rw [Env.upd_self, Env.upd_ne (Ne.symm hst), hd]
        · rw [Env.upd_ne hx]
          by_cases hxs : x = s
          · subst hxs; rw [Env.upd_self, Env.upd_self]
          · rw [Env.upd_ne hxs, Env.upd_ne hxs, Env.upd_ne hx]

theorem ends_findFrom_out (hc : c.Good) {L : Libc} (h : All c w es ea lost) {a s pos : Nat} {vs : List Bytes}
    (ha : ea a = .val (elems vs)) (hp : vs.length < pos) :
    Ends c lost (findFrom L a s pos) w (fun _ _ _ => False) (fun e es' ea' => e = .outOfRange ∧ es' = es ∧ ea' = ea) := by
  unfold findFrom
  rw [if_pos (by omega)]
  refine Ends.bind (Q' := fun _ _ _ => False) ?_ fun _ _ _ _ _ h => h.elim
  obtain ⟨C, env, hV⟩ := all_view hc h
  have hlen := (hV.arr a _ ha).1
  unfold Ends P.arrs Rca.validateIndex
  rw [bind_ok hlen, if_pos (by simp [elems]; omega)]
  exact ⟨es, ea, h, rfl, rfl, rfl⟩

/-- From a triple about the code to what is observed. -/
theorem act_of {β : Type} (act : Act) (hnc : ∀ k, act ≠ .call k) {m : P β} {f : β → End} {Q : β → Env UInt8 → Env Elem → Prop}
    {E : Exc → Env UInt8 → Env Elem → Prop} {post : End → Env UInt8 → Env Elem → Prop} (h : Ends c lost m w Q E)
    (hq : ∀ a es' ea', Q a es' ea' → post (f a) es' ea') (he : ∀ e es' ea', E e es' ea' → post (.exc e) es' ea') :
    ∃ out w' es' ea', act.result ((do let x ← m; Pure.pure (f x) : P End) w) = some (out, w') ∧ post out es' ea' ∧ All c w' es' ea' lost := by
  have hres : ∀ e w', act.result (.throw e w') = some (.exc e, w') := by
    intro e w'
    cases act <;> first | rfl | exact absurd rfl (hnc _)
  unfold Ends at h
  rw [show ((m >>= fun x => (Pure.pure (f x) : P End)) w) = P.bind m _ w from rfl]
  unfold P.bind
  cases hm : m w with
  | ub => rw [hm] at h; exact h.elim
  | ok a w' =>
    rw [hm] at h
    obtain ⟨es', ea', h1, h2⟩ := h
    exact ⟨_, w', es', ea', rfl, hq _ _ _ h2, h1⟩
  | throw e w' =>
    rw [hm] at h
    obtain ⟨es', ea', h1, h2⟩ := h
    exact ⟨_, w', es', ea', hres e w', he _ _ _ h2, h1⟩

/-- What the specification needs to know about the platform. -/
structure Plat (c : Conf) (L : Libc) (fuel : Nat) : Prop where
  good : c.Good
  nul : c.str.nul = some 0
  libc : L.Ok
  memmem : L.memmem = true
  fuel : maxInt < fuel

theorem get_val {T : Type} {env : Env T} {o : Nat} {v : List T} (h : env o = .val v) : env.get o = v := by unfold Env.get; rw [h]

/-- One act. -/
theorem all_act {L : Libc} {fuel : Nat} (hP : Plat c L fuel) (h : All c w es ea lost) {act : Act}
    (hpre : act.Pre c (shared w.strs) (shared w.arrs) es ea) :
    ∃ out w' es' ea', act.result (act.run c L fuel w) = some (out, w') ∧
      act.Post c (shared w.strs) (shared w.arrs) es ea out es' ea' ∧ All c w' es' ea' (lost + act.wasted ea out) := by
  have hc := hP.good
  cases act with
  | call k =>
    obtain ⟨out, w', es', ea', h1, h2, h3⟩ := all_step hc h hpre
    refine ⟨.called out, w', es', ea', ?_, ⟨out, rfl, h2⟩, h3⟩
    show Act.result _ (P.bind (Nest.run c k) _ w) = _
    unfold P.bind
    cases hr : Nest.run c k w with
    | ub => rw [hr] at h1; cases h1
    | ok x w1 => rw [hr] at h1; cases h1; rfl
    | throw e w1 => rw [hr] at h1; cases h1; rfl
  | split s d limit =>
    obtain ⟨hlim, v, x, hs, hd, hx, hl⟩ := hpre
    have hl' : v.length ≤ maxInt := by unfold maxInt; omega
    obtain ⟨ps, h1, h2⟩ := split_pieces hP.libc hP.memmem hx hl' hlim (fuel := fuel) (by have := hP.fuel; omega)
    refine act_of _ (fun _ h => by cases h) (ends_split hc hP.nul h hs hd hl' h1) (fun a es' ea' ⟨h3, h4, h5⟩ => ?_) fun e es' ea' ⟨h3, h4, h5⟩ => ?_
    · exact ⟨h4, .inr ⟨a, ps, rfl, h3, by rw [get_val hs, get_val hd]; exact h2, h5⟩⟩
    · exact ⟨h4, .inl ⟨by rw [h3], h5⟩⟩
  | join a d quoted =>
    obtain ⟨vs, x, ha, hd, hsz, hne⟩ := hpre
    have hj := c35_join_partial vs x quoted hsz hne
    refine act_of _ (fun _ h => by cases h) (ends_join hc hP.nul h ha hd hj) (fun t es' ea' ⟨h1, h2, h3⟩ => ?_) fun e es' ea' ⟨h1, h2, h3⟩ => ?_
    · exact ⟨h3, .inr ⟨t, vs, rfl, h1, ha, by rw [h2, get_val hd]⟩⟩
    · exact ⟨h3, .inl ⟨by rw [h1], h2⟩⟩
  | popTo a s =>
    obtain ⟨h1, h2, h3⟩ := hpre
    exact act_of _ (fun _ h => by cases h) (ends_popTo hc h h1 h2 h3) (f := fun _ => .done)
      (fun _ es' ea' ⟨xs, y, h1, h2, h3⟩ => ⟨xs, y, h1, rfl, h2, h3⟩) fun _ _ _ h => h.elim
  | find a s =>
    obtain ⟨vs, x, ha, hs⟩ := hpre
    exact act_of _ (fun _ h => by cases h) (looks_find hc hP.libc ha hs h (fun _ _ _ => False))
      (fun n es' ea' ⟨h1, h2, h3⟩ => ⟨h2, h3, vs, n, ha, rfl, by rw [get_val hs]; exact h1⟩) fun _ _ _ h => h.elim
  | findFrom a s pos =>
    obtain ⟨vs, x, ha, hs⟩ := hpre
    by_cases hp : pos ≤ vs.length
    · exact act_of _ (fun _ h => by cases h) (looks_findFrom hc hP.libc ha hs hp h (fun _ _ _ => False))
        (fun n es' ea' ⟨h1, h2, h3⟩ => ⟨h2, h3, vs, ha, by rw [if_pos hp, get_val hs]; exact ⟨n, rfl, h1⟩⟩) fun _ _ _ h => h.elim
    · exact act_of _ (fun _ h => by cases h) (ends_findFrom_out hc h ha (by omega)) (fun _ _ _ h => h.elim)
        fun e es' ea' ⟨h1, h2, h3⟩ => ⟨h2, h3, vs, ha, by rw [if_neg hp, h1]⟩
  | rfind a s =>
    obtain ⟨vs, x, ha, hs⟩ := hpre
    exact act_of _ (fun _ h => by cases h) (looks_rfind hc hP.libc ha hs h (fun _ _ _ => False))
      (fun n es' ea' ⟨h1, h2, h3⟩ => ⟨h2, h3, vs, n, ha, rfl, by rw [get_val hs]; exact h1⟩) fun _ _ _ h => h.elim
  | equals a b n =>
    obtain ⟨vs, us, ha, hb⟩ := hpre
    refine act_of _ (fun _ h => by cases h) (looks_equalsN hc hP.libc (n := n) ha hb h (fun _ _ _ => False))
      (fun r es' ea' ⟨h1, h2, h3⟩ => ⟨h2, h3, vs, us, ha, hb, ?_⟩) fun _ _ _ h => h.elim
    congr 1
    exact Bool.eq_iff_iff.2 (h1.trans decide_eq_true_iff.symm)
  | eq a b =>
    obtain ⟨vs, us, ha, hb⟩ := hpre
    exact act_of _ (fun _ h => by cases h) (looks_eq hc hP.libc ha hb h (fun _ _ _ => False))
      (fun r es' ea' ⟨h1, h2, h3⟩ => ⟨h2, h3, vs, us, ha, hb, by rw [h1]⟩) fun _ _ _ h => h.elim
  | ne a b =>
    obtain ⟨vs, us, ha, hb⟩ := hpre
    refine act_of _ (fun _ h => by cases h) (m := ne L a b) (Q := fun r es' ea' => r = !decide (vs = us) ∧ es' = es ∧ ea' = ea)
      (E := fun _ _ _ => False) ?_
      (fun r es' ea' ⟨h1, h2, h3⟩ => ⟨h2, h3, vs, us, ha, hb, by rw [h1]; congr 1; simp⟩) fun _ _ _ h => h.elim
    exact Ends.bind (looks_eq hc hP.libc ha hb h (fun _ _ _ => False)) fun r w' es' ea' hA ⟨h1, h2, h3⟩ =>
      Ends.pure hA ⟨by rw [h1], h2, h3⟩
  | hash a =>
    obtain ⟨vs, ha⟩ := hpre
    exact act_of _ (fun _ h => by cases h) (f := fun x : UInt64 => .num x.toNat) (looks_hash hc h ha (fun _ _ _ => False))
      (fun r es' ea' ⟨h1, h2, h3⟩ => ⟨h2, h3, vs, ha, by rw [h1]⟩) fun _ _ _ h => h.elim

theorem all_acts {L : Libc} {fuel : Nat} (hP : Plat c L fuel) : ∀ (n : Nat) {w : World} {es : Env UInt8} {ea : Env Elem} {lost : Nat},
    All c w es ea lost → Acts c L fuel n w es ea lost
  | 0, _, _, _, _, h => all_sees hP.good h
  | n + 1, _, _, _, _, h => ⟨all_sees hP.good h, fun _ hpre => by
      obtain ⟨out, w', es', ea', h1, h2, h3⟩ := all_act hP h hpre
      exact ⟨out, w', es', ea', h1, h2, all_acts hP n h3⟩⟩

end Bdlib.Nest
