import Verif.Props.C88
import Verif.Prog.TableList
import Verif.Spec.TableList

/-!
# C109: tables made of a list

`HashTable<String, String> t{{k, v}, …}` has one entry for each key, with the value of the first pair that has it.  The Strings of the entries are new, no
other String or table changes, and if memory runs out nothing is left of it all.
-/

namespace Bdlib.Rca
open Bdlib Bdlib.Spec Bdlib.Str Bdlib.Hash

variable {cfg : Cfg UInt8} {lib : Lib} {s : St UInt8} {env : Env UInt8} {w : Tabs} {m : Tables}

section
variable (hv : cfg.Valid) (hp : cfg.Physical) (hL : lib.L.Ok)
include hv hp hL

theorem runs_emplaceT (hr : Reach cfg s env) (h : TabsOk cfg lib env w m) {i : Nat} {p : Nat × Nat} (hk : env.Has p.1) (hv2 : env.Live p.2) :
    TRuns cfg (emplaceT cfg lib i p) w s
      (fun _ w' env' => ((m i (env.get p.1)).isSome ∧ w' = w ∧ env' = env) ∨
        (m i (env.get p.1) = none ∧ ∃ a b, env a = .dead ∧ env b = .dead ∧ a ≠ b ∧ env' = (env.upd a (.val (env.get p.1))).upd b (env p.2) ∧
          TabsOk cfg lib env' w' (m.add i (env.get p.1) (a, b))))
      (fun e w' env' => e = .badAlloc ∧ env' = env ∧ TabsOk cfg lib env' w' m ∧ ∃ n, lib.fits n = false) := by
  obtain ⟨v, hk'⟩ := id hk
  unfold emplaceT
  show TRuns cfg (TM.lift (hash cfg p.1) >>= _) w s _ _
  refine TRuns.str (runs_hashP (lib := lib) hv hp hr hk) fun hc s1 env1 hr1 e => ?_
  obtain ⟨e, e2⟩ := e
  replace e2 := e2.symm
  subst e2
  rw [e]
  refine TRuns.str (runs_scanP hv hp hL hk' _ hr1 fun p hp => (h.tab i).wf.good _ p hp) fun r s2 env2 hr2 e => ?_
  obtain ⟨e1, e2⟩ := e
  replace e2 := e2.symm
  subst e2
  have hf : r = m i (env.get p.1) := e1.trans ((h.tab i).find hk)
  cases r with
  | some q => exact TRuns.pure hr2 (Or.inl ⟨by rw [← hf]; rfl, rfl, rfl⟩)
  | none =>
    dsimp only
    refine TRuns.alloc hr2 ?_ fun hx => ⟨rfl, rfl, h.frame rfl fun i k a b hm => ⟨rfl, h.value hm⟩, hx⟩
    refine TRuns.str (runs_copyCtor hv hp hr2 hk') fun a s3 env3 hr3 e => ?_
    obtain ⟨ha, rfl⟩ := e
    have hva' : p.2 ≠ a := dead_ne ha hv2
    refine TRuns.str (runs_copyAny hv hp hr3 (r := p.2) (upd_live nofun hv2)) fun b s4 env4 hr4 e => ?_
    obtain ⟨hb, rfl⟩ := e
    have hab : a ≠ b := dead_ne hb (live_val Env.upd_self)
    rw [Env.upd_ne hab.symm] at hb
    rw [Env.upd_ne hva'] at hr4
    have hfr : ∀ i l x y, m i l = some (x, y) → ((env.upd a (.val v)).upd b (env p.2)) x = env x ∧
        ((env.upd a (.val v)).upd b (env p.2)).Live y := fun i l x y hm => by
      refine ⟨?_, upd_live hv2 (upd_live nofun (h.value hm))⟩
      rw [Env.upd_ne (h.fresh hb hm).1, Env.upd_ne (h.fresh ha hm).1]
    have hnew : ∀ j l x y, m j l = some (x, y) → x ≠ a ∧ y ≠ a ∧ x ≠ b ∧ y ≠ b := fun j l x y hm =>
      ⟨(h.fresh ha hm).1, (h.fresh ha hm).2, (h.fresh hb hm).1, (h.fresh hb hm).2⟩
    generalize hE : (env.upd a (.val v)).upd b (env p.2) = env2 at *
    have hva : env2 a = .val v := by rw [← hE, Env.upd_ne hab, Env.upd_self]
    have hvb : env2.Live b := by rw [← hE]; unfold Env.Live; rw [Env.upd_self]; exact hv2
    have hh : (ty cfg lib env).hash p.1 = (ty cfg lib env2).hash a := by
      unfold ty; dsimp only; rw [get_val hk', get_val hva]
    have h2 : TabsOk cfg lib env2 w m := h.frame rfl hfr
    have hv0 : env.get p.1 = v := get_val hk'
    have hE' : env2 = (env.upd a (.val (env.get p.1))).upd b (env p.2) := by rw [hv0, hE]
    cases hg : lib.grow (w.tab i).count (w.tab i).n with
    | none =>
      refine TRuns.sets hr4 (Or.inr ⟨hf.symm, a, b, ha, hb, hab, hE', ?_⟩)
      refine h2.add hab hnew ?_
      rw [hh, hv0]
      exact (h2.tab i).push hva hvb (by rw [← hv0]; exact hf.symm)
    | some n =>
      refine TRuns.bind (Q' := fun _ w' env' => env' = env2 ∧ w'.tab = w.tab) (TRuns.onThrow
        (E' := fun e w' env' => e = .badAlloc ∧ env' = env2 ∧ w'.tab = w.tab ∧ ∃ n, lib.fits n = false) ?_ ?_) ?_
      · exact TRuns.allocs hr4 ⟨rfl, rfl⟩ fun hx => ⟨rfl, rfl, rfl, hx⟩
      · rintro e w5 s5 env5 hr5 ⟨rfl, rfl, hw5, hx⟩
        refine TRuns.lift (Q' := fun _ env' => env' = (env5.upd b .dead).upd a .dead) (Runs.bind (runs_destroy hv hp hr5 hvb)
          fun _ s6 env6 hr6 e => ?_) fun _ env' e => ?_
        · subst e
          exact runs_destroy hv hp hr6 (by unfold Env.Live; rw [Env.upd_ne hab, hva]; nofun)
        · have hback : env' = env := by
            rw [e, ← hE, Env.upd_upd]
            rw [Env.upd_id (show ((env.upd a (.val v)) b = .dead) by rw [Env.upd_ne hab.symm]; exact hb)]
            rw [Env.upd_upd, Env.upd_id ha]
          exact ⟨rfl, hback, h.frame hw5 fun j l x y hm => by rw [hback]; exact ⟨rfl, h.value hm⟩, hx⟩
      · rintro _ w5 s5 env5 hr5 ⟨rfl, hw5⟩
        refine TRuns.str (runs_refillP (lib := lib) hv hp _ _ hr5 fun p hp => entries_ok (h2.tab i).wf hp) fun u s6 env6 hr6 e => ?_
        obtain ⟨rfl, rfl⟩ := e
        refine TRuns.sets hr6 (Or.inr ⟨hf.symm, a, b, ha, hb, hab, hE', ?_⟩)
        have h5 : TabsOk cfg lib env6 w5 m := h2.frame hw5 fun i k a b hm => ⟨rfl, h2.value hm⟩
        refine h5.add hab hnew ?_
        rw [hh, hv0]
        exact ((h2.tab i).rehash n).push hva hvb (by rw [← hv0]; exact hf.symm)

omit hv hp hL in
theorem put_put {i : Nat} {g f : Text → Option (Nat × Nat)} : (m.put i g).put i f = m.put i f := by
  funext x; unfold Tables.put; split <;> rfl

omit hv hp hL in
theorem put_add {i : Nat} {f : Text → Option (Nat × Nat)} {k : Text} {p : Nat × Nat} :
    (m.put i f).add i k p = m.put i fun x => if x = k then some p else f x := by
  funext x y
  unfold Tables.add Tables.put
  by_cases hx : x = i
  · rw [if_pos hx, if_pos hx]; simp
  · rw [if_neg hx, if_neg hx, if_neg hx]

omit hv hp hL in
theorem firstOf_append {l : List (Nat × Nat)} {p : Nat × Nat} {k : Text} :
    firstOf env (l ++ [p]) k = (firstOf env l k).or (if env.get p.1 = k then some p else none) := by
  unfold firstOf
  rw [List.find?_append]
  congr 1
  by_cases h : env.get p.1 = k <;> simp [h]

/-- The loop over the list: `l0` is done. -/
theorem runs_emplaceAllT {i : Nat} {env1 : Env UInt8} : ∀ (l l0 : List (Nat × Nat)) {s : St UInt8} {env : Env UInt8} {w : Tabs} {f : Text → Option (Nat × Nat)},
    Reach cfg s env → TabsOk cfg lib env w (m.put i f) → MadeOf env1 l0 f env → (∀ p ∈ l, env1.Has p.1 ∧ env1.Live p.2) →
    TRuns cfg (emplaceAllT cfg lib i l) w s
      (fun _ w' env' => ∃ f', TabsOk cfg lib env' w' (m.put i f') ∧ MadeOf env1 (l0 ++ l) f' env')
      (fun e w' env' => e = .badAlloc ∧ (∃ n, lib.fits n = false) ∧ ∃ f' l', TabsOk cfg lib env' w' (m.put i f') ∧ MadeOf env1 l' f' env')
  | [], l0, s, env, w, f, hr, h, hc, _ => TRuns.pure hr ⟨f, h, by rw [List.append_nil]; exact hc⟩
  | p :: l, l0, s, env, w, f, hr, h, hc, hl => by
    obtain ⟨hk, hv2⟩ := hl p (List.mem_cons_self ..)
    have hlive : ∀ o, Of f o → env.Live o := fun o ⟨x, c, d, hx, ho⟩ => by
      have hx' : (m.put i f) i x = some (c, d) := by rw [Tables.put_self]; exact hx
      rcases ho with rfl | rfl
      · exact live_val (h.key hx')
      · exact h.value hx'
    have hnot : ∀ o, env1.Live o → ¬ Of f o := fun o ho ⟨x, c, d, hx, hoc⟩ => by
      obtain ⟨h3, h4, _⟩ := hc.made x c d hx
      rcases hoc with rfl | rfl
      · exact ho h3
      · exact ho h4
    have hdead : ∀ o, env o = .dead → env1 o = .dead := fun o ho => by
      rw [← hc.rest o fun hof => hlive o hof ho]; exact ho
    obtain ⟨v, hk'⟩ := id hk
    have e1 : env p.1 = env1 p.1 := hc.rest _ (hnot _ (live_val hk'))
    have e2 : env p.2 = env1 p.2 := hc.rest _ (hnot _ hv2)
    have e3 : env.get p.1 = env1.get p.1 := by rw [get_val hk', get_val (e1.trans hk')]
    unfold emplaceAllT
    refine TRuns.bind (TRuns.mono (runs_emplaceT hv hp hL hr h (i := i) (p := p) ⟨v, e1.trans hk'⟩ (by unfold Env.Live; rw [e2]; exact hv2)) (fun _ _ _ h => h) ?_) ?_
    · rintro e w' env' ⟨rfl, rfl, h1, h2⟩
      exact ⟨rfl, h2, f, l0, h1, hc⟩
    · rintro _ w2 s2 env2 hr2 hq
      rw [Tables.put_self, e3] at hq
      have happ : l0 ++ p :: l = (l0 ++ [p]) ++ l := by simp
      rw [happ]
      rcases hq with ⟨hs, rfl, rfl⟩ | ⟨hn, a, b, ha, hb, hab, rfl, ht⟩
      · -- the key is there
        refine runs_emplaceAllT l (l0 ++ [p]) hr2 h ⟨fun k => ?_, fun k a b hf => ?_, hc.rest⟩ fun q hq => hl q (List.mem_cons_of_mem _ hq)
        · rw [firstOf_append, hc.keys k]
          by_cases hk0 : env1.get p.1 = k
          · rw [hc.keys, hk0] at hs
            rw [hs]
            cases hx : firstOf env1 l0 k with
            | none => rw [hx] at hs; cases hs
            | some q => rfl
          · rw [if_neg hk0, Option.or_none]
        · obtain ⟨h3, h4, h5, q, h6, h7⟩ := hc.made k a b hf
          exact ⟨h3, h4, h5, q, by rw [firstOf_append, h6]; rfl, h7⟩
      · -- a new entry
        rw [put_add] at ht
        refine runs_emplaceAllT l (l0 ++ [p]) hr2 ht ⟨fun k => ?_, fun k x y hf => ?_, fun o ho => ?_⟩ fun q hq => hl q (List.mem_cons_of_mem _ hq)
        · rw [firstOf_append]
          by_cases hk0 : env1.get p.1 = k
          · subst hk0
            rw [if_pos rfl, if_pos rfl]
            cases firstOf env1 l0 (env1.get p.1) <;> rfl
          · rw [if_neg (Ne.symm hk0), if_neg hk0, Option.or_none, hc.keys]
        · by_cases hk0 : k = env1.get p.1
          · subst hk0
            rw [if_pos rfl] at hf
            injection hf with hf; injection hf with hf1 hf2
            subst hf1; subst hf2
            refine ⟨hdead _ ha, hdead _ hb, by rw [Env.upd_ne hab, Env.upd_self], p, ?_, by rw [Env.upd_self, e2]⟩
            rw [firstOf_append, if_pos rfl]
            have := hc.keys (env1.get p.1)
            rw [hn] at this
            cases hx : firstOf env1 l0 (env1.get p.1) with
            | none => rfl
            | some q => rw [hx] at this; cases this
          · rw [if_neg hk0] at hf
            obtain ⟨h3, h4, h5, q, h6, h7⟩ := hc.made k x y hf
            have hx' : (m.put i f) i k = some (x, y) := by rw [Tables.put_self]; exact hf
            refine ⟨h3, h4, ?_, q, by rw [firstOf_append, h6]; rfl, ?_⟩
            · rw [Env.upd_ne (h.fresh hb hx').1, Env.upd_ne (h.fresh ha hx').1, h5]
            · rw [Env.upd_ne (h.fresh hb hx').2, Env.upd_ne (h.fresh ha hx').2, h7]
        · have ho1 : o ≠ a := fun e => ho ⟨env1.get p.1, a, b, if_pos rfl, Or.inl e⟩
          have ho2 : o ≠ b := fun e => ho ⟨env1.get p.1, a, b, if_pos rfl, Or.inr e⟩
          rw [Env.upd_ne ho2, Env.upd_ne ho1]
          refine hc.rest o fun ⟨x, c, d, hx, hoc⟩ => ho ⟨x, c, d, ?_, hoc⟩
          dsimp only
          rw [if_neg]
          · exact hx
          · rintro rfl; rw [hn] at hx; cases hx

/-- The constructor. -/
theorem runs_listT (hr : Reach cfg s env) (h : TabsOk cfg lib env w m) {i : Nat} (hi : ∀ k, m i k = none) {ps : List (Nat × Nat)}
    (hl : ∀ p ∈ ps, env.Has p.1 ∧ env.Live p.2) :
    TRuns cfg (listT cfg lib i ps) w s
      (fun _ w' env' => ∃ f, TabsOk cfg lib env' w' (m.put i f) ∧ MadeOf env ps f env')
      (fun e w' env' => e = .badAlloc ∧ (∃ n, lib.fits n = false) ∧ env' = env ∧ TabsOk cfg lib env' w' m) := by
  unfold listT
  refine TRuns.alloc hr (TRuns.set ?_) fun hx => ⟨rfl, hx, rfl, h.frame rfl fun i k a b hm => ⟨rfl, h.value hm⟩⟩
  have hm : m.put i (fun _ => none) = m := by
    funext x
    unfold Tables.put
    split
    · rename_i e; subst e; funext k; rw [hi k]
    · rfl
  have hg : Gone (m i) env env := fun o => ⟨fun ⟨k, a, b, hk, _⟩ => (by rw [hi k] at hk; cases hk), fun _ => rfl⟩
  have h1 := TabsOk.gone (n := w.asked + 1) h hg (TabOk.empty (n := ps.length))
  refine TRuns.onThrow (runs_emplaceAllT hv hp hL ps [] (f := fun _ => none) hr h1 ⟨fun _ => rfl, nofun, fun _ _ => rfl⟩ hl) ?_
  rintro e w2 s2 env2 hr2 ⟨rfl, hx, f', l', h2, h3⟩
  refine TRuns.mono (runs_clearT hv hp hL hr2 h2 i (E := fun _ _ _ => False)) (fun _ w3 env3 h4 => ?_) fun _ _ _ h => h
  obtain ⟨h4, rfl⟩ := h4
  rw [Tables.put_self] at h4
  have he : env3 = env := by
    funext o
    by_cases ho : Of f' o
    · rw [(h4 o).1 ho]
      obtain ⟨k, a, b, h5, h6⟩ := ho
      obtain ⟨h7, h8, _⟩ := h3.made k a b h5
      rcases h6 with rfl | rfl
      · exact h7.symm
      · exact h8.symm
    · rw [(h4 o).2 ho, h3.rest o ho]
  subst he
  refine ⟨rfl, hx, rfl, ?_⟩
  have := TabsOk.gone (n := w2.asked) h2 (i := i) (by rw [Tables.put_self]; exact h4) (h2.tab i).clear
  rw [put_put, hm] at this
  exact this

omit hv hp hL in
theorem get_eq {env env' : Env UInt8} {o o' : Nat} (h : env' o' = env o) : env'.get o' = env.get o := by
  unfold Env.get; rw [h]

/-- The pairs `qs` are new and have the values of `ps`; no other String has changed. -/
structure Pairs (env : Env UInt8) (ps qs : List (Nat × Nat)) (env' : Env UInt8) : Prop where
  same : qs.map (fun q => (env' q.1, env' q.2)) = ps.map fun p => (env p.1, env p.2)
  fresh : ∀ q ∈ qs, env q.1 = .dead ∧ env q.2 = .dead ∧ env'.Live q.1 ∧ env'.Live q.2 ∧ q.1 ≠ q.2
  apart : qs.Pairwise fun p q => p.1 ≠ q.1 ∧ p.1 ≠ q.2 ∧ p.2 ≠ q.1 ∧ p.2 ≠ q.2
  rest : ∀ o, (∀ q ∈ qs, o ≠ q.1 ∧ o ≠ q.2) → env' o = env o

omit hL in
theorem runs_pairsP : ∀ (ps : List (Nat × Nat)) {s : St UInt8} {env : Env UInt8}, Reach cfg s env → (∀ p ∈ ps, env.Has p.1 ∧ env.Live p.2) →
    Runs cfg (pairsP ps) s (fun qs env' => Pairs env ps qs env') fun _ _ => False
  | [], s, env, hr, _ => Runs.pure hr ⟨rfl, nofun, .nil, fun _ _ => rfl⟩
  | p :: l, s, env, hr, hl => by
    obtain ⟨⟨v, hk⟩, hv2⟩ := hl p (List.mem_cons_self ..)
    unfold pairsP
    refine Runs.bind (runs_copyCtor hv hp hr hk) fun a s1 env1 hr1 e => ?_
    obtain ⟨ha, rfl⟩ := e
    have hva' : p.2 ≠ a := dead_ne ha hv2
    refine Runs.bind (runs_copyAny hv hp hr1 (r := p.2) (upd_live nofun hv2)) fun b s2 env2 hr2 e => ?_
    obtain ⟨hb, rfl⟩ := e
    have hab : a ≠ b := dead_ne hb (live_val Env.upd_self)
    rw [Env.upd_ne hab.symm] at hb
    rw [Env.upd_ne hva'] at hr2
    have hold : ∀ o, env.Live o → ((env.upd a (.val v)).upd b (env p.2)) o = env o := fun o ho => by
      rw [Env.upd_ne (dead_ne hb ho), Env.upd_ne (dead_ne ha ho)]
    have hla : ((env.upd a (.val v)).upd b (env p.2)) a = .val v := by rw [Env.upd_ne hab, Env.upd_self]
    have hlb : ((env.upd a (.val v)).upd b (env p.2)) b = env p.2 := Env.upd_self
    refine Runs.bind (runs_pairsP l hr2 fun q hq => ?_) fun qs s3 env3 hr3 hq => Runs.pure hr3 ?_
    · obtain ⟨⟨u, h1⟩, h2⟩ := hl q (List.mem_cons_of_mem _ hq)
      refine ⟨⟨u, by rw [hold _ (live_val h1)]; exact h1⟩, ?_⟩
      unfold Env.Live; rw [hold _ h2]; exact h2
    · have hna : ∀ q ∈ qs, a ≠ q.1 ∧ a ≠ q.2 := fun q h => by
        obtain ⟨h1, h2, -⟩ := hq.fresh q h
        constructor <;> intro e
        · rw [← e, hla] at h1; cases h1
        · rw [← e, hla] at h2; cases h2
      have hnb : ∀ q ∈ qs, b ≠ q.1 ∧ b ≠ q.2 := fun q h => by
        obtain ⟨h1, h2, -⟩ := hq.fresh q h
        constructor <;> intro e
        · rw [← e, hlb] at h1; exact hv2 h1
        · rw [← e, hlb] at h2; exact hv2 h2
      have h3a : env3 a = .val v := by rw [hq.rest a hna, hla]
      have h3b : env3 b = env p.2 := by rw [hq.rest b hnb, hlb]
      refine ⟨?_, fun q h => ?_, List.pairwise_cons.2 ⟨fun q h => ⟨(hna q h).1, (hna q h).2, (hnb q h).1, (hnb q h).2⟩, hq.apart⟩, fun o ho => ?_⟩
      · rw [List.map_cons, List.map_cons, hq.same, h3a, h3b, hk]
        congr 1
        refine List.map_congr_left fun q h => ?_
        obtain ⟨⟨u, h1⟩, h2⟩ := hl q (List.mem_cons_of_mem _ h)
        rw [hold _ (live_val h1), hold _ h2]
      · rcases List.mem_cons.1 h with rfl | h
        · exact ⟨ha, hb, live_val h3a, by unfold Env.Live; rw [h3b]; exact hv2, hab⟩
        · obtain ⟨h1, h2, h3⟩ := hq.fresh q h
          rw [Env.upd_ne (hnb q h).1.symm, Env.upd_ne (hna q h).1.symm] at h1
          rw [Env.upd_ne (hnb q h).2.symm, Env.upd_ne (hna q h).2.symm] at h2
          exact ⟨h1, h2, h3⟩
      · rw [hq.rest o fun q h => ho q (List.mem_cons_of_mem _ h), Env.upd_ne (ho (a, b) (List.mem_cons_self ..)).2,
          Env.upd_ne (ho (a, b) (List.mem_cons_self ..)).1]

omit hv hp hL in
theorem firstOf_same {env env' : Env UInt8} {k : Text} : ∀ {ps qs : List (Nat × Nat)},
    qs.map (fun q => (env' q.1, env' q.2)) = ps.map (fun p => (env p.1, env p.2)) →
    (firstOf env' qs k).map (fun q => env' q.2) = (firstOf env ps k).map fun p => env p.2
  | [], [], _ => rfl
  | [], q :: qs, h => nomatch h
  | p :: ps, [], h => nomatch h
  | p :: ps, q :: qs, h => by
    rw [List.map_cons, List.map_cons] at h
    injection h with h1 h2
    injection h1 with h3 h4
    have ih := firstOf_same (k := k) h2
    unfold firstOf at ih ⊢
    rw [List.find?_cons, List.find?_cons, get_eq h3]
    by_cases hk : env.get p.1 = k
    · simp [hk, h4]
    · simp only [hk, decide_false]; exact ih

/-- `HashTable<String, String> t{{k, v}, …}`. -/
theorem runs_bracedT (hr : Reach cfg s env) (h : TabsOk cfg lib env w m) {i : Nat} (hi : ∀ k, m i k = none) {ps : List (Nat × Nat)}
    (hl : ∀ p ∈ ps, env.Has p.1 ∧ env.Live p.2) :
    TRuns cfg (bracedT cfg lib i ps) w s
      (fun _ w' env' => ∃ f, TabsOk cfg lib env' w' (m.put i f) ∧ MadeOf env ps f env')
      (fun e w' env' => e = .badAlloc ∧ (∃ n, lib.fits n = false) ∧ env' = env ∧ TabsOk cfg lib env' w' m) := by
  unfold bracedT
  refine TRuns.str (runs_pairsP hv hp ps hr hl) fun qs s1 env1 hr1 hq => ?_
  -- the pairs are not in the tables
  have hold : ∀ o, env.Live o → (∀ q ∈ qs, o ≠ q.1 ∧ o ≠ q.2) := fun o ho q h => by
    obtain ⟨h1, h2, -⟩ := hq.fresh q h
    exact ⟨fun e => ho (e ▸ h1), fun e => ho (e ▸ h2)⟩
  have h1 : TabsOk cfg lib env1 w m := h.frame rfl fun j k a b hm => by
    rw [hq.rest a (hold a (live_val (h.key hm)))]
    refine ⟨rfl, ?_⟩
    unfold Env.Live
    rw [hq.rest b (hold b (h.value hm))]; exact h.value hm
  have hpre : ∀ q ∈ qs, env1.Has q.1 ∧ env1.Live q.2 := fun q h => by
    refine ⟨?_, (hq.fresh q h).2.2.2.1⟩
    have : (env1 q.1, env1 q.2) ∈ ps.map fun p => (env p.1, env p.2) := by
      rw [← hq.same]; exact List.mem_map.2 ⟨q, h, rfl⟩
    obtain ⟨p, hp1, hp2⟩ := List.mem_map.1 this
    injection hp2 with hp2 _
    obtain ⟨⟨v, hv1⟩, -⟩ := hl p hp1
    exact ⟨v, by rw [← hp2]; exact hv1⟩
  -- destroying them
  have hdrop : ∀ {s2 : St UInt8} {env2 : Env UInt8}, Reach cfg s2 env2 → (∀ q ∈ qs, env2 q.1 = env1 q.1 ∧ env2 q.2 = env1 q.2) →
      Runs cfg (dropAllP cfg qs.reverse) s2 (fun _ env' => ∀ o, ((∃ q ∈ qs, o = q.1 ∨ o = q.2) → env' o = .dead) ∧
        ((¬ ∃ q ∈ qs, o = q.1 ∨ o = q.2) → env' o = env2 o)) fun _ _ => False := fun {s2 env2} hr2 hs => by
    refine Runs.mono (runs_dropAllP hv hp hL qs.reverse hr2 (fun q h => ?_) ?_) (fun _ env' h o => ?_) fun _ _ h => h
    · rw [List.mem_reverse] at h
      obtain ⟨-, -, h3, h4, h5⟩ := hq.fresh q h
      unfold Env.Live
      rw [(hs q h).1, (hs q h).2]
      exact ⟨h3, h4, h5⟩
    · rw [List.pairwise_reverse]
      exact hq.apart.imp fun h => ⟨h.1.symm, h.2.2.1.symm, h.2.1.symm, h.2.2.2.symm⟩
    · have := h o
      simp only [List.mem_reverse] at this
      exact this
  -- back to the Strings before
  have hback : ∀ {env3 : Env UInt8}, (∀ o, ((∃ q ∈ qs, o = q.1 ∨ o = q.2) → env3 o = .dead) ∧ ((¬ ∃ q ∈ qs, o = q.1 ∨ o = q.2) → env3 o = env1 o)) →
      env3 = env := fun {env3} h => by
    funext o
    by_cases ho : ∃ q ∈ qs, o = q.1 ∨ o = q.2
    · rw [(h o).1 ho]
      obtain ⟨q, hq1, hq2⟩ := ho
      obtain ⟨h3, h4, -⟩ := hq.fresh q hq1
      rcases hq2 with rfl | rfl
      · exact h3.symm
      · exact h4.symm
    · rw [(h o).2 ho]
      exact hq.rest o fun q hq1 => ⟨fun e => ho ⟨q, hq1, Or.inl e⟩, fun e => ho ⟨q, hq1, Or.inr e⟩⟩
  refine TRuns.bind (Q' := fun _ w' env' => ∃ f, TabsOk cfg lib env' w' (m.put i f) ∧ MadeOf env1 qs f env')
    (TRuns.onThrow (runs_listT hv hp hL hr1 h1 hi hpre) ?_) ?_
  · rintro e w2 s2 env2 hr2 ⟨rfl, hx, rfl, ht⟩
    refine TRuns.lift (hdrop hr2 fun _ _ => ⟨rfl, rfl⟩) fun _ env' he => ?_
    have := hback he
    subst this
    refine ⟨rfl, hx, rfl, ht.frame rfl fun j k a b hm => ?_⟩
    rw [hq.rest a (hold a (live_val (h.key hm)))]
    exact ⟨rfl, h.value hm⟩
  · rintro _ w2 s2 env2 hr2 ⟨f, ht, hm⟩
    have hnot : ∀ o, env1.Live o → ¬ Of f o := fun o ho ⟨x, c, d, hx, hoc⟩ => by
      obtain ⟨h3, h4, _⟩ := hm.made x c d hx
      rcases hoc with rfl | rfl
      · exact ho h3
      · exact ho h4
    refine TRuns.lift (hdrop hr2 fun q h => ?_) fun _ env3 he => ⟨f, ?_, ?_⟩
    · obtain ⟨-, -, h3, h4, -⟩ := hq.fresh q h
      exact ⟨hm.rest _ (hnot _ h3), hm.rest _ (hnot _ h4)⟩
    · refine ht.frame rfl fun j k a b hk => ?_
      have key : ∀ o, (o = a ∨ o = b) → ¬ ∃ q ∈ qs, o = q.1 ∨ o = q.2 := by
        rintro o ho ⟨q, hq1, hq2⟩
        obtain ⟨h3, h4, h5, h6, -⟩ := hq.fresh q hq1
        by_cases hj : j = i
        · subst hj
          rw [Tables.put_self] at hk
          obtain ⟨h7, h8, -⟩ := hm.made k a b hk
          rcases ho with rfl | rfl <;> rcases hq2 with rfl | rfl
          · exact h5 h7
          · exact h6 h7
          · exact h5 h8
          · exact h6 h8
        · rw [Tables.put_ne hj] at hk
          have hol : env.Live o := by
            rcases ho with rfl | rfl
            · exact live_val (h.key hk)
            · exact h.value hk
          rcases hq2 with rfl | rfl
          · exact hol h3
          · exact hol h4
      rw [(he a).2 (key a (Or.inl rfl))]
      refine ⟨rfl, ?_⟩
      unfold Env.Live
      rw [(he b).2 (key b (Or.inr rfl))]
      exact ht.value hk
    · refine ⟨fun k => ?_, fun k a b hk => ?_, fun o ho => ?_⟩
      · rw [hm.keys k, ← Option.isSome_map, firstOf_same hq.same, Option.isSome_map]
      · obtain ⟨h3, h4, h5, q, h6, h7⟩ := hm.made k a b hk
        have hqa : ∀ o, env1 o = .dead → ¬ ∃ q ∈ qs, o = q.1 ∨ o = q.2 := by
          rintro o ho ⟨q, hq1, hq2⟩
          obtain ⟨-, -, h5, h6, -⟩ := hq.fresh q hq1
          rcases hq2 with rfl | rfl
          · exact h5 ho
          · exact h6 ho
        have hd : ∀ o, env1 o = .dead → env o = .dead := fun o ho => by
          rw [← hq.rest o fun q hq1 => ⟨fun e => hqa o ho ⟨q, hq1, Or.inl e⟩, fun e => hqa o ho ⟨q, hq1, Or.inr e⟩⟩]; exact ho
        have hsame := firstOf_same (k := k) hq.same
        rw [h6] at hsame
        cases hps : firstOf env ps k with
        | none => rw [hps] at hsame; cases hsame
        | some p =>
          rw [hps] at hsame
          injection hsame with hsame
          exact ⟨hd a h3, hd b h4, by rw [(he a).2 (hqa a h3)]; exact h5, p, rfl, by rw [(he b).2 (hqa b h4), h7]; exact hsame⟩
      · by_cases hoq : ∃ q ∈ qs, o = q.1 ∨ o = q.2
        · rw [(he o).1 hoq]
          obtain ⟨q, hq1, hq2⟩ := hoq
          obtain ⟨h3, h4, -⟩ := hq.fresh q hq1
          rcases hq2 with rfl | rfl
          · exact h3.symm
          · exact h4.symm
        · rw [(he o).2 hoq, hm.rest o ho]
          exact hq.rest o fun q hq1 => ⟨fun e => hoq ⟨q, hq1, Or.inl e⟩, fun e => hoq ⟨q, hq1, Or.inr e⟩⟩

end

/-! ## Programs -/

/-- As `Behaves` (C88), but the next `n` calls may also make tables of lists: table `i`, which has no entries, of pairs of Strings. -/
def BehavesToo (cfg : Cfg UInt8) (lib : Lib) : Nat → Tabs → St UInt8 → Env UInt8 → Tables → Prop
  | 0, _, _, _, _ => True
  | n + 1, w, s, env, m => Agrees s env ∧ Apart m ∧ (∀ i k a b, m i k = some (a, b) → env a = .val k ∧ env.Live b) ∧
      (∀ op, Pre cfg (shared s) env op → ∃ out s' env', result (run cfg op s) = some (out, s') ∧ Post cfg (shared s) env op out env' ∧
        (KeepsEntries m env env' → BehavesToo cfg lib n w s' env' m)) ∧
      (∀ c, TPre env m c → ∃ out w' s' env' m', tresult (callT cfg lib c w s) = some (out, w', s') ∧ TPost cfg env m c out env' m' ∧
        (∀ e, out = .exc e → ∃ r, lib.fits r = false) ∧ BehavesToo cfg lib n w' s' env' m') ∧
      (∀ i ps, (∀ k, m i k = none) → (∀ p ∈ ps, env.Has p.1 ∧ env.Live p.2) →
        (∃ w' s' env' f, bracedT cfg lib i ps w s = (.ok () s', w') ∧ MadeOf env ps f env' ∧ BehavesToo cfg lib n w' s' env' (m.put i f)) ∨
        (∃ w' s', bracedT cfg lib i ps w s = (.throw .badAlloc s', w') ∧ (∃ r, lib.fits r = false) ∧ BehavesToo cfg lib n w' s' env m))

theorem behavesToo_of (hv : cfg.Valid) (hp : cfg.Physical) (hL : lib.L.Ok) : ∀ (n : Nat) {w : Tabs} {s : St UInt8} {env : Env UInt8} {m : Tables},
    Reach cfg s env → TabsOk cfg lib env w m → BehavesToo cfg lib n w s env m
  | 0, _, _, _, _, _, _ => trivial
  | n + 1, w, s, env, m, hr, h => by
    refine ⟨hr.agrees hv hp, h.apart, fun i k a b hk => ⟨h.key hk, h.value hk⟩, fun op hop => ?_, fun c hc => ?_, fun i ps hi hl => ?_⟩
    · obtain ⟨out, s', env', h1, h2, h3⟩ := hr.call hv hp hop
      exact ⟨out, s', env', h1, h2, fun hk => behavesToo_of hv hp hL n h3
        (h.frame rfl fun i k a b hm => ⟨hk.1 a ⟨i, k, b, hm⟩, hk.2 b ⟨i, k, a, hm⟩⟩)⟩
    · have := call_ok hv hp hL hr h hc
      unfold CallOk TRuns at this
      match hx : callT cfg lib c w s, this with
      | (.ok x s', w'), ⟨env', ⟨m', h1, h2⟩, h3⟩ => exact ⟨_, _, _, env', m', rfl, h1, nofun, behavesToo_of hv hp hL n h3 h2⟩
      | (.throw x s', w'), ⟨env', ⟨m', h1, h2, h4⟩, h3⟩ => exact ⟨_, _, _, env', m', rfl, h1, fun _ _ => h4, behavesToo_of hv hp hL n h3 h2⟩
    · have := runs_bracedT hv hp hL hr h hi hl
      unfold TRuns at this
      match hx : bracedT cfg lib i ps w s, this with
      | (.ok x s', w'), ⟨env', ⟨f, h1, h2⟩, h3⟩ => exact Or.inl ⟨w', s', env', f, rfl, h2, behavesToo_of hv hp hL n h3 h1⟩
      | (.throw x s', w'), ⟨env', ⟨h1, h2, h4, h5⟩, h3⟩ =>
        subst h1; subst h4
        exact Or.inr ⟨w', s', rfl, h2, behavesToo_of hv hp hL n h3 h5⟩

/-- Programs of any length that make tables of lists and use them. -/
theorem c109_programs (hv : cfg.Valid) (hp : cfg.Physical) (hL : lib.L.Ok) (n : Nat) : BehavesToo cfg lib n {} {} Env.empty fun _ _ => none :=
  behavesToo_of hv hp hL n .init ⟨fun _ => TabOk.empty, nofun, nofun, nofun⟩

/-- What is looked up in such a table: the value the first pair with this key had. -/
theorem c109_lookup {env env' : Env UInt8} {ps : List (Nat × Nat)} {f : Text → Option (Nat × Nat)} (h : MadeOf env ps f env') {l r : List (Nat × Nat)}
    {p : Nat × Nat} (hps : ps = l ++ p :: r) (hl : ∀ q ∈ l, env.get q.1 ≠ env.get p.1) :
    ∃ a b, f (env.get p.1) = some (a, b) ∧ env' b = env p.2 := by
  have hf : firstOf env ps (env.get p.1) = some p := by
    unfold firstOf
    rw [hps, List.find?_append, List.find?_eq_none.2 fun q hq => by simpa using hl q hq]
    simp
  have h1 := h.keys (env.get p.1)
  rw [hf] at h1
  obtain ⟨⟨a, b⟩, hab⟩ := Option.isSome_iff_exists.1 h1
  obtain ⟨-, -, -, q, h2, h3⟩ := h.made _ a b hab
  rw [hf] at h2
  injection h2 with h2
  subst h2
  exact ⟨a, b, hab, h3⟩

/-! ## Cases -/

example (n : Nat) := c109_programs (lib := libTight) byteCfg_valid byteCfg_physical glibc_ok n

/-- A table made of a list, then calls: how they end. -/
def playsList (lib : Lib) (i : Nat) (ps : List (Nat × Nat)) (cs : List TCall) : Option (List TOutcome × Tabs × St UInt8) :=
  match bracedT byteCfg lib i ps {} stAB with
  | (.ok _ s, w) => plays lib cs w s
  | _ => none

/-- `HashTable<String, String> t{{"a", "b"}, {"b", "a"}, {"a", "a"}}`: two entries, and the value of "a" (String 9) is "b". -/
example : (playsList libAmple 0 [(0, 1), (1, 0), (0, 0)] [.size 0, .find 0 0, .find 0 1]).map
      (fun r => (r.1, [8, 9, 10, 11].map r.2.2.view, (List.range 20).filter fun o => (r.2.2.view o).isSome)) =
    some ([.ret (.nat 2), .ret (.entry (some (8, 9))), .ret (.entry (some (10, 11)))], [some [97], some [98], some [98], some [97]], [0, 1, 8, 9, 10, 11]) := by
  decide +kernel

/-- Memory for four requests. -/
def libFour : Lib := ⟨glibc, fun r => decide (r < 4), fun n _ => some (n + 2)⟩

/-- There is memory for one entry of two: nothing is left but the Strings "a" and "b". -/
example : (match bracedT byteCfg libFour 0 [(0, 1), (1, 0), (0, 0)] {} stAB with
    | (.throw .badAlloc s, w) => some ((w.tab 0).entries, [0, 1].map s.view, (List.range 20).filter fun o => (s.view o).isSome)
    | _ => none) = some ([], [some [97], some [98]], [0, 1]) := by
  decide +kernel

end Bdlib.Rca
