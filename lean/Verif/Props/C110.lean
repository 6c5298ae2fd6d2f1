import Verif.Props.C103
import Verif.Deep.TableList
import Verif.Deep.TableListSpec

/-!
# C110: tables made of a list, with keys and values that are Strings or arrays nested to any depth

C109 has tables of Strings on the memory machine.  Here keys and values are objects of any depths, in programs with objects of all depths (C103).
-/

namespace Bdlib.Deep
open Bdlib Bdlib.Spec Bdlib.Rca Bdlib.Hash

variable {p : Params} {i j n : Nat} {I : Mem p n → Envs n → Prop} {w w' : Tabs} {s : Mem p n} {V V' : All} {c : Shelf i j n} {m : Maps i}

theorem Maps.put_put {t : Nat} {g f : Slot (Ty i) → Option (Nat × Nat)} : (m.put t g).put t f = m.put t f := by
  funext x; unfold Maps.put; split <;> rfl

theorem Maps.put_add {t : Nat} {f : Slot (Ty i) → Option (Nat × Nat)} {k : Slot (Ty i)} {e : Nat × Nat} :
    (m.put t f).add t k e = m.put t fun x => if x = k then some e else f x := by
  funext x y
  unfold Maps.add Maps.put
  by_cases hx : x = t
  · rw [if_pos hx, if_pos hx]; simp
  · rw [if_neg hx, if_neg hx, if_neg hx]

theorem firstWith_append {l : List (Nat × Nat)} {e : Nat × Nat} {k : Slot (Ty i)} :
    firstWith V (l ++ [e]) k = (firstWith V l k).or (if V ⟨i, e.1⟩ = k then some e else none) := by
  unfold firstWith
  rw [List.find?_append]
  congr 1
  by_cases h : V ⟨i, e.1⟩ = k <;> simp [h]

/-- What the objects of a pair hold. -/
def held (i j : Nat) (V : All) (e : Nat × Nat) : Slot (Ty i) × Slot (Ty j) := (V ⟨i, e.1⟩, V ⟨j, e.2⟩)

/-- The pairs `qs` are new and have the values of `es`; no other object has changed. -/
structure Pairs (i j : Nat) (V : All) (es qs : List (Nat × Nat)) (V' : All) : Prop where
  same : qs.map (held i j V') = es.map (held i j V)
  fresh : ∀ q ∈ qs, V ⟨i, q.1⟩ = .dead ∧ V ⟨j, q.2⟩ = .dead ∧ V' ⟨i, q.1⟩ ≠ .dead ∧ V' ⟨j, q.2⟩ ≠ .dead ∧ (⟨i, q.1⟩ : Name) ≠ ⟨j, q.2⟩
  apart : qs.Pairwise fun e q => ∀ x, Part i j e x → ¬ Part i j q x
  rest : ∀ x, (¬ ∃ q ∈ qs, Part i j q x) → V' x = V x

section
variable (hI : Acts p I)
include hI

theorem goes_emplace (hr : Stands I s V) (h : TabsOk p c V w m) {t : Nat} {e : Nat × Nat} (hk : Known (V ⟨i, e.1⟩)) (hv2 : V ⟨j, e.2⟩ ≠ .dead) :
    TGoes I (emplaceD p c t e) w s
      (fun _ w' V' => ((m t (V ⟨i, e.1⟩)).isSome ∧ w' = w ∧ V' = V) ∨
        (m t (V ⟨i, e.1⟩) = none ∧ ∃ a b, V ⟨i, a⟩ = .dead ∧ V ⟨j, b⟩ = .dead ∧ (⟨i, a⟩ : Name) ≠ ⟨j, b⟩ ∧
          V' = (V.upd ⟨i, a⟩ (V ⟨i, e.1⟩)).upd ⟨j, b⟩ (V ⟨j, e.2⟩) ∧ TabsOk p c V' w' (m.add t (V ⟨i, e.1⟩) (a, b))))
      (fun x w' V' => x = .badAlloc ∧ V' = V ∧ TabsOk p c V' w' m ∧ ∃ r, c.fits r = false) := by
  have hlk : V ⟨i, e.1⟩ ≠ .dead := known_ne hk
  unfold emplaceD
  refine TGoes.get ?_
  refine TGoes.obj (goes_hash hI c.key hr hk) fun hc s1 V1 hr1 e1 => ?_
  obtain ⟨e1, e2⟩ := e1
  replace e2 := e2.symm
  subst e2
  rw [e1]
  refine TGoes.obj (goes_scan hI hk _ hr1 fun e he => (h.tab t).wf.good _ e he) fun r s2 V2 hr2 e3 => ?_
  obtain ⟨e3, e2⟩ := e3
  replace e2 := e2.symm
  subst e2
  have hf : r = m t (V ⟨i, e.1⟩) := e3.trans ((h.tab t).find hk)
  cases r with
  | some q => exact TGoes.pure hr2 (Or.inl ⟨by rw [← hf]; rfl, rfl, rfl⟩)
  | none =>
    dsimp only
    refine TGoes.ask hr2 ?_ fun hx => ⟨rfl, rfl, h.frame rfl fun i k a b hm => ⟨rfl, h.value hm⟩, hx⟩
    refine TGoes.obj (goes_newCopy hI c.key hr2 hlk) fun a s3 V3 hr3 e4 => ?_
    obtain ⟨ha, rfl⟩ := e4
    have hva' : (⟨j, e.2⟩ : Name) ≠ ⟨i, a⟩ := dead_ne ha hv2
    refine TGoes.obj (goes_newCopy hI c.value hr3 (r := e.2) (upd_live hlk hv2)) fun b s4 V4 hr4 e5 => ?_
    obtain ⟨hb, rfl⟩ := e5
    have hab : (⟨i, a⟩ : Name) ≠ ⟨j, b⟩ := dead_ne hb (by rw [All.upd_self]; exact hlk)
    rw [All.upd_ne hab.symm] at hb
    rw [All.upd_ne hva'] at hr4
    have hfr : ∀ t l x y, m t l = some (x, y) → ((V.upd ⟨i, a⟩ (V ⟨i, e.1⟩)).upd ⟨j, b⟩ (V ⟨j, e.2⟩)) ⟨i, x⟩ = V ⟨i, x⟩ ∧
        ((V.upd ⟨i, a⟩ (V ⟨i, e.1⟩)).upd ⟨j, b⟩ (V ⟨j, e.2⟩)) ⟨j, y⟩ ≠ .dead := fun t l x y hm => by
      refine ⟨?_, upd_live hv2 (upd_live hlk (h.value hm))⟩
      rw [All.upd_ne (h.fresh hb hm).1, All.upd_ne (h.fresh ha hm).1]
    have hnew : ∀ u l x y, m u l = some (x, y) → (⟨i, x⟩ : Name) ≠ ⟨i, a⟩ ∧ (⟨j, y⟩ : Name) ≠ ⟨i, a⟩ ∧ (⟨i, x⟩ : Name) ≠ ⟨j, b⟩ ∧ (⟨j, y⟩ : Name) ≠ ⟨j, b⟩ :=
      fun u l x y hm => ⟨(h.fresh ha hm).1, (h.fresh ha hm).2, (h.fresh hb hm).1, (h.fresh hb hm).2⟩
    generalize hE : (V.upd ⟨i, a⟩ (V ⟨i, e.1⟩)).upd ⟨j, b⟩ (V ⟨j, e.2⟩) = V2 at *
    have hva : V2 ⟨i, a⟩ = V ⟨i, e.1⟩ := by rw [← hE, All.upd_ne hab, All.upd_self]
    have hvb : V2 ⟨j, b⟩ ≠ .dead := by rw [← hE, All.upd_self]; exact hv2
    have hla : V2 ⟨i, a⟩ ≠ .dead := by rw [hva]; exact hlk
    have hh : hashOf p (V ⟨i, e.1⟩) = (Deep.keys p c V2).hash a := by
      unfold Deep.keys; dsimp only; rw [hva]
    have h2 : TabsOk p c V2 w m := h.frame rfl hfr
    cases hg : c.grow (w.tab t).count (w.tab t).n with
    | none =>
      refine TGoes.sets hr4 (Or.inr ⟨hf.symm, a, b, ha, hb, hab, hE.symm, ?_⟩)
      refine h2.add hab hnew ?_
      rw [hh]
      exact (h2.tab t).push hk hva hvb hf.symm
    | some r =>
      refine TGoes.bind (Q' := fun _ w' V' => V' = V2 ∧ w'.tab = w.tab) (TGoes.onThrow
        (X' := fun x w' V' => x = .badAlloc ∧ V' = V2 ∧ w'.tab = w.tab ∧ ∃ r, c.fits r = false) ?_ ?_) ?_
      · exact TGoes.asks hr4 ⟨rfl, rfl⟩ fun hx => ⟨rfl, rfl, rfl, hx⟩
      · rintro x w5 s5 V5 hr5 ⟨rfl, rfl, hw5, hx⟩
        refine TGoes.lift (goes_drop hI hr5 hla hvb hab) fun _ V' e6 => ?_
        have hback : V' = V := by
          rw [e6, ← hE, All.upd_upd]
          rw [All.upd_id (show ((V.upd ⟨i, a⟩ (V ⟨i, e.1⟩)) ⟨j, b⟩ = .dead) by rw [All.upd_ne hab.symm]; exact hb)]
          rw [All.upd_upd, All.upd_id ha]
        exact ⟨rfl, hback, h.frame hw5 fun u l x y hm => by rw [hback]; exact ⟨rfl, h.value hm⟩, hx⟩
      · rintro _ w5 s5 V5 hr5 ⟨rfl, hw5⟩
        refine TGoes.obj (goes_refill (c := c) hI _ _ hr5 fun e he => entries_ok (h2.tab t).wf he) fun u s6 V6 hr6 e => ?_
        obtain ⟨rfl, rfl⟩ := e
        refine TGoes.sets hr6 (Or.inr ⟨hf.symm, a, b, ha, hb, hab, hE.symm, ?_⟩)
        have h5 : TabsOk p c V6 w5 m := h2.frame hw5 fun i k a b hm => ⟨rfl, h2.value hm⟩
        refine h5.add hab hnew ?_
        rw [hh]
        exact ((h2.tab t).rehash r).push hk hva hvb hf.symm

/-- The loop over the list: `l0` is done. -/
theorem goes_emplaceAll {t : Nat} {V1 : All} : ∀ (l l0 : List (Nat × Nat)) {s : Mem p n} {V : All} {w : Tabs} {f : Slot (Ty i) → Option (Nat × Nat)},
    Stands I s V → TabsOk p c V w (m.put t f) → MadeOf j V1 l0 f V → (∀ e ∈ l, Known (V1 ⟨i, e.1⟩) ∧ V1 ⟨j, e.2⟩ ≠ .dead) →
    TGoes I (emplaceAllD p c t l) w s
      (fun _ w' V' => ∃ f', TabsOk p c V' w' (m.put t f') ∧ MadeOf j V1 (l0 ++ l) f' V')
      (fun x w' V' => x = .badAlloc ∧ (∃ r, c.fits r = false) ∧ ∃ f' l', TabsOk p c V' w' (m.put t f') ∧ MadeOf j V1 l' f' V')
  | [], l0, s, V, w, f, hr, h, hc, _ => TGoes.pure hr ⟨f, h, by rw [List.append_nil]; exact hc⟩
  | e :: l, l0, s, V, w, f, hr, h, hc, hl => by
    obtain ⟨hk, hv2⟩ := hl e (List.mem_cons_self ..)
    have hlive : ∀ x, Owns j f x → V x ≠ .dead := fun x ⟨y, c, d, hx, ho⟩ => by
      have hx' : (m.put t f) t y = some (c, d) := by rw [Maps.put_self]; exact hx
      rcases ho with rfl | rfl
      · exact h.keyLive hx'
      · exact h.value hx'
    have hnot : ∀ x, V1 x ≠ .dead → ¬ Owns j f x := fun x ho ⟨y, c, d, hx, hoc⟩ => by
      obtain ⟨h3, h4, _⟩ := hc.made y c d hx
      rcases hoc with rfl | rfl
      · exact ho h3
      · exact ho h4
    have hdead : ∀ x, V x = .dead → V1 x = .dead := fun x ho => by
      rw [← hc.rest x fun hof => hlive x hof ho]; exact ho
    have e1 : V ⟨i, e.1⟩ = V1 ⟨i, e.1⟩ := hc.rest _ (hnot _ (known_ne hk))
    have e2 : V ⟨j, e.2⟩ = V1 ⟨j, e.2⟩ := hc.rest _ (hnot _ hv2)
    unfold emplaceAllD
    refine TGoes.bind (TGoes.mono (goes_emplace hI hr h (t := t) (e := e) (by rw [e1]; exact hk) (by rw [e2]; exact hv2)) (fun _ _ _ h => h) ?_) ?_
    · rintro x w' V' ⟨rfl, rfl, h1, h2⟩
      exact ⟨rfl, h2, f, l0, h1, hc⟩
    · rintro _ w2 s2 V2 hr2 hq
      rw [Maps.put_self, e1] at hq
      have happ : l0 ++ e :: l = (l0 ++ [e]) ++ l := by simp
      rw [happ]
      rcases hq with ⟨hs, rfl, rfl⟩ | ⟨hn, a, b, ha, hb, hab, rfl, ht⟩
      · -- the key is there
        refine goes_emplaceAll l (l0 ++ [e]) hr2 h ⟨fun k => ?_, fun k a b hf => ?_, hc.rest⟩ fun q hq => hl q (List.mem_cons_of_mem _ hq)
        · rw [firstWith_append, hc.keys k]
          by_cases hk0 : V1 ⟨i, e.1⟩ = k
          · rw [hc.keys, hk0] at hs
            rw [hs]
            cases hx : firstWith V1 l0 k with
            | none => rw [hx] at hs; cases hs
            | some q => rfl
          · rw [if_neg hk0, Option.or_none]
        · obtain ⟨h3, h4, h5, q, h6, h7⟩ := hc.made k a b hf
          exact ⟨h3, h4, h5, q, by rw [firstWith_append, h6]; rfl, h7⟩
      · -- a new entry
        rw [Maps.put_add] at ht
        refine goes_emplaceAll l (l0 ++ [e]) hr2 ht ⟨fun k => ?_, fun k x y hf => ?_, fun o ho => ?_⟩ fun q hq => hl q (List.mem_cons_of_mem _ hq)
        · rw [firstWith_append]
          by_cases hk0 : V1 ⟨i, e.1⟩ = k
          · subst hk0
            rw [if_pos rfl, if_pos rfl]
            cases firstWith V1 l0 (V1 ⟨i, e.1⟩) <;> rfl
          · rw [if_neg (Ne.symm hk0), if_neg hk0, Option.or_none, hc.keys]
        · by_cases hk0 : k = V1 ⟨i, e.1⟩
          · subst hk0
            rw [if_pos rfl] at hf
            injection hf with hf; injection hf with hf1 hf2
            subst hf1; subst hf2
            refine ⟨hdead _ ha, hdead _ hb, by rw [All.upd_ne hab, All.upd_self], e, ?_, by rw [All.upd_self, e2]⟩
            rw [firstWith_append, if_pos rfl]
            have := hc.keys (V1 ⟨i, e.1⟩)
            rw [hn] at this
            cases hx : firstWith V1 l0 (V1 ⟨i, e.1⟩) with
            | none => rfl
            | some q => rw [hx] at this; cases this
          · rw [if_neg hk0] at hf
            obtain ⟨h3, h4, h5, q, h6, h7⟩ := hc.made k x y hf
            have hx' : (m.put t f) t k = some (x, y) := by rw [Maps.put_self]; exact hf
            refine ⟨h3, h4, ?_, q, by rw [firstWith_append, h6]; rfl, ?_⟩
            · rw [All.upd_ne (h.fresh hb hx').1, All.upd_ne (h.fresh ha hx').1, h5]
            · rw [All.upd_ne (h.fresh hb hx').2, All.upd_ne (h.fresh ha hx').2, h7]
        · have ho1 : o ≠ ⟨i, a⟩ := fun e' => ho ⟨V1 ⟨i, e.1⟩, a, b, if_pos rfl, Or.inl e'⟩
          have ho2 : o ≠ ⟨j, b⟩ := fun e' => ho ⟨V1 ⟨i, e.1⟩, a, b, if_pos rfl, Or.inr e'⟩
          rw [All.upd_ne ho2, All.upd_ne ho1]
          refine hc.rest o fun ⟨x, c, d, hx, hoc⟩ => ho ⟨x, c, d, ?_, hoc⟩
          dsimp only
          rw [if_neg]
          · exact hx
          · rintro rfl; rw [hn] at hx; cases hx

/-- The constructor. -/
theorem goes_list (hr : Stands I s V) (h : TabsOk p c V w m) {t : Nat} (hi : ∀ k, m t k = none) {es : List (Nat × Nat)}
    (hl : ∀ e ∈ es, Known (V ⟨i, e.1⟩) ∧ V ⟨j, e.2⟩ ≠ .dead) :
    TGoes I (listD p c t es) w s
      (fun _ w' V' => ∃ f, TabsOk p c V' w' (m.put t f) ∧ MadeOf j V es f V')
      (fun x w' V' => x = .badAlloc ∧ (∃ r, c.fits r = false) ∧ V' = V ∧ TabsOk p c V' w' m) := by
  unfold listD
  refine TGoes.ask hr (TGoes.set ?_) fun hx => ⟨rfl, hx, rfl, h.frame rfl fun i k a b hm => ⟨rfl, h.value hm⟩⟩
  have hm : m.put t (fun _ => none) = m := by
    funext x
    unfold Maps.put
    split
    · rename_i e; subst e; funext k; rw [hi k]
    · rfl
  have hg : GoneWith j (m t) V V := fun o => ⟨fun ⟨k, a, b, hk, _⟩ => (by rw [hi k] at hk; cases hk), fun _ => rfl⟩
  have h1 := TabsOk.gone (r := w.asked + 1) h hg (TabOk.empty (r := es.length))
  refine TGoes.onThrow (goes_emplaceAll hI es [] (f := fun _ => none) hr h1 ⟨fun _ => rfl, nofun, fun _ _ => rfl⟩ hl) ?_
  rintro x w2 s2 V2 hr2 ⟨rfl, hx, f', l', h2, h3⟩
  refine TGoes.mono (goes_clear hI hr2 h2 t (X := fun _ _ _ => False)) (fun _ w3 V3 h4 => ?_) fun _ _ _ h => h
  obtain ⟨h4, rfl⟩ := h4
  rw [Maps.put_self] at h4
  have he : V3 = V := by
    funext o
    by_cases ho : Owns j f' o
    · rw [(h4 o).1 ho]
      obtain ⟨k, a, b, h5, h6⟩ := ho
      obtain ⟨h7, h8, _⟩ := h3.made k a b h5
      rcases h6 with rfl | rfl
      · exact h7.symm
      · exact h8.symm
    · rw [(h4 o).2 ho, h3.rest o ho]
  subst he
  refine ⟨rfl, hx, rfl, ?_⟩
  have := TabsOk.gone (r := w2.asked) h2 (t := t) (by rw [Maps.put_self]; exact h4) (h2.tab t).clear
  rw [Maps.put_put, hm] at this
  exact this

theorem goes_pairs : ∀ (es : List (Nat × Nat)) {s : Mem p n} {V : All}, Stands I s V → (∀ e ∈ es, Known (V ⟨i, e.1⟩) ∧ V ⟨j, e.2⟩ ≠ .dead) →
    Goes I (pairsD p c es) s fun qs V' => Pairs i j V es qs V'
  | [], s, V, hr, _ => Goes.pure hr ⟨rfl, nofun, .nil, fun _ _ => rfl⟩
  | e :: l, s, V, hr, hl => by
    obtain ⟨hk, hv2⟩ := hl e (List.mem_cons_self ..)
    have hlk := known_ne hk
    unfold pairsD
    refine Goes.bind (goes_newCopy hI c.key hr hlk) fun a s1 V1 hr1 e1 => ?_
    obtain ⟨ha, rfl⟩ := e1
    have hva' : (⟨j, e.2⟩ : Name) ≠ ⟨i, a⟩ := dead_ne ha hv2
    refine Goes.bind (goes_newCopy hI c.value hr1 (r := e.2) (upd_live hlk hv2)) fun b s2 V2 hr2 e2 => ?_
    obtain ⟨hb, rfl⟩ := e2
    have hab : (⟨i, a⟩ : Name) ≠ ⟨j, b⟩ := dead_ne hb (by rw [All.upd_self]; exact hlk)
    rw [All.upd_ne hab.symm] at hb
    rw [All.upd_ne hva'] at hr2
    have hold : ∀ x, V x ≠ .dead → ((V.upd ⟨i, a⟩ (V ⟨i, e.1⟩)).upd ⟨j, b⟩ (V ⟨j, e.2⟩)) x = V x := fun x ho => by
      rw [All.upd_ne (dead_ne hb ho), All.upd_ne (dead_ne ha ho)]
    have hla : ((V.upd ⟨i, a⟩ (V ⟨i, e.1⟩)).upd ⟨j, b⟩ (V ⟨j, e.2⟩)) ⟨i, a⟩ = V ⟨i, e.1⟩ := by rw [All.upd_ne hab, All.upd_self]
    have hlb : ((V.upd ⟨i, a⟩ (V ⟨i, e.1⟩)).upd ⟨j, b⟩ (V ⟨j, e.2⟩)) ⟨j, b⟩ = V ⟨j, e.2⟩ := All.upd_self
    have hrest : ∀ x, x ≠ ⟨i, a⟩ → x ≠ ⟨j, b⟩ → ((V.upd ⟨i, a⟩ (V ⟨i, e.1⟩)).upd ⟨j, b⟩ (V ⟨j, e.2⟩)) x = V x := fun x h1 h2 => by
      rw [All.upd_ne h2, All.upd_ne h1]
    generalize (V.upd ⟨i, a⟩ (V ⟨i, e.1⟩)).upd ⟨j, b⟩ (V ⟨j, e.2⟩) = V2 at *
    refine Goes.bind (goes_pairs l hr2 fun q hq => ?_) fun qs s3 V3 hr3 hq => Goes.pure hr3 ?_
    · obtain ⟨h1, h2⟩ := hl q (List.mem_cons_of_mem _ hq)
      rw [hold _ (known_ne h1), hold _ h2]
      exact ⟨h1, h2⟩
    · have hn : ∀ x, Part i j (a, b) x → ∀ q ∈ qs, ¬ Part i j q x := fun x hx q h hqx => by
        obtain ⟨h1, h2, -⟩ := hq.fresh q h
        rcases hx with rfl | rfl <;> rcases hqx with e | e
        · rw [← e, hla] at h1; exact hlk h1
        · rw [← e, hla] at h2; exact hlk h2
        · rw [← e, hlb] at h1; exact hv2 h1
        · rw [← e, hlb] at h2; exact hv2 h2
      have h3a : V3 ⟨i, a⟩ = V ⟨i, e.1⟩ := by rw [hq.rest _ fun ⟨q, h, h'⟩ => hn _ (Or.inl rfl) q h h', hla]
      have h3b : V3 ⟨j, b⟩ = V ⟨j, e.2⟩ := by rw [hq.rest _ fun ⟨q, h, h'⟩ => hn _ (Or.inr rfl) q h h', hlb]
      refine ⟨?_, fun q h => ?_, List.pairwise_cons.2 ⟨fun q h x hx => hn x hx q h, hq.apart⟩, fun x hx => ?_⟩
      · rw [List.map_cons, List.map_cons, hq.same]
        have hhd : held i j V3 (a, b) = held i j V e := by unfold held; rw [h3a, h3b]
        rw [hhd]
        congr 1
        refine List.map_congr_left fun q h => ?_
        obtain ⟨h1, h2⟩ := hl q (List.mem_cons_of_mem _ h)
        unfold held
        rw [hold _ (known_ne h1), hold _ h2]
      · rcases List.mem_cons.1 h with rfl | h
        · exact ⟨ha, hb, by rw [h3a]; exact hlk, by rw [h3b]; exact hv2, hab⟩
        · obtain ⟨h1, h2, h3⟩ := hq.fresh q h
          have hx1 := hn ⟨i, q.1⟩
          have hx2 := hn ⟨j, q.2⟩
          rw [hrest _ (fun e => hx1 (Or.inl e) q h (Or.inl rfl)) (fun e => hx1 (Or.inr e) q h (Or.inl rfl))] at h1
          rw [hrest _ (fun e => hx2 (Or.inl e) q h (Or.inr rfl)) (fun e => hx2 (Or.inr e) q h (Or.inr rfl))] at h2
          exact ⟨h1, h2, h3⟩
      · rw [hq.rest x fun ⟨q, h, h'⟩ => hx ⟨q, List.mem_cons_of_mem _ h, h'⟩]
        exact hrest x (fun e => hx ⟨(a, b), List.mem_cons_self .., Or.inl e⟩) fun e => hx ⟨(a, b), List.mem_cons_self .., Or.inr e⟩

omit hI in
theorem firstWith_same {V V' : All} {k : Slot (Ty i)} : ∀ {es qs : List (Nat × Nat)},
    qs.map (held i j V') = es.map (held i j V) →
    (firstWith V' qs k).map (fun q => (held i j V' q).2) = (firstWith V es k).map fun e => (held i j V e).2
  | [], [], _ => rfl
  | [], q :: qs, h => nomatch h
  | e :: es, [], h => nomatch h
  | e :: es, q :: qs, h => by
    rw [List.map_cons, List.map_cons] at h
    injection h with h1 h2
    have h3 : V' ⟨i, q.1⟩ = V ⟨i, e.1⟩ := congrArg Prod.fst h1
    have h4 : (held i j V' q).2 = (held i j V e).2 := congrArg Prod.snd h1
    have ih := firstWith_same (k := k) h2
    unfold firstWith at ih ⊢
    rw [List.find?_cons, List.find?_cons, h3]
    by_cases hk : V ⟨i, e.1⟩ = k
    · simp [hk, h4]
    · simp only [hk, decide_false]; exact ih

/-- `HashTable<K, V> t{{k, v}, …}`. -/
theorem goes_braced (hr : Stands I s V) (h : TabsOk p c V w m) {t : Nat} (hi : ∀ k, m t k = none) {es : List (Nat × Nat)}
    (hl : ∀ e ∈ es, Known (V ⟨i, e.1⟩) ∧ V ⟨j, e.2⟩ ≠ .dead) :
    TGoes I (bracedD p c t es) w s
      (fun _ w' V' => ∃ f, TabsOk p c V' w' (m.put t f) ∧ MadeOf j V es f V')
      (fun x w' V' => x = .badAlloc ∧ (∃ r, c.fits r = false) ∧ V' = V ∧ TabsOk p c V' w' m) := by
  unfold bracedD
  refine TGoes.obj (goes_pairs (c := c) hI es hr hl) fun qs s1 V1 hr1 hq => ?_
  -- the pairs are not in the tables
  have hold : ∀ x, V x ≠ .dead → ¬ ∃ q ∈ qs, Part i j q x := fun x ho ⟨q, h, hp⟩ => by
    obtain ⟨h1, h2, -⟩ := hq.fresh q h
    rcases hp with rfl | rfl
    · exact ho h1
    · exact ho h2
  have h1 : TabsOk p c V1 w m := h.frame rfl fun u k a b hm => by
    rw [hq.rest _ (hold _ (h.keyLive hm)), hq.rest _ (hold _ (h.value hm))]
    exact ⟨rfl, h.value hm⟩
  have hpre : ∀ q ∈ qs, Known (V1 ⟨i, q.1⟩) ∧ V1 ⟨j, q.2⟩ ≠ .dead := fun q h => by
    refine ⟨?_, (hq.fresh q h).2.2.2.1⟩
    have : held i j V1 q ∈ es.map (held i j V) := by
      rw [← hq.same]; exact List.mem_map.2 ⟨q, h, rfl⟩
    obtain ⟨e, he1, he2⟩ := List.mem_map.1 this
    injection he2 with he2 _
    rw [← he2]
    exact (hl e he1).1
  -- destroying them
  have hdrop : ∀ {s2 : Mem p n} {V2 : All}, Stands I s2 V2 → (∀ q ∈ qs, V2 ⟨i, q.1⟩ = V1 ⟨i, q.1⟩ ∧ V2 ⟨j, q.2⟩ = V1 ⟨j, q.2⟩) →
      Goes I (dropAllD p c qs.reverse) s2 (fun _ V' => ∀ x, ((∃ q ∈ qs, Part i j q x) → V' x = .dead) ∧
        ((¬ ∃ q ∈ qs, Part i j q x) → V' x = V2 x)) := fun {s2 V2} hr2 hs => by
    refine Goes.mono (goes_dropAll (c := c) hI qs.reverse hr2 (fun q h => ?_) ?_) (fun _ V' h x => ?_)
    · rw [List.mem_reverse] at h
      obtain ⟨-, -, h3, h4, h5⟩ := hq.fresh q h
      rw [(hs q h).1, (hs q h).2]
      exact ⟨h3, h4, h5⟩
    · rw [List.pairwise_reverse]
      exact hq.apart.imp fun h x h1 h2 => h x h2 h1
    · have := h x
      simp only [List.mem_reverse] at this
      exact this
  -- back to the objects before
  have hback : ∀ {V3 : All}, (∀ x, ((∃ q ∈ qs, Part i j q x) → V3 x = .dead) ∧ ((¬ ∃ q ∈ qs, Part i j q x) → V3 x = V1 x)) →
      V3 = V := fun {V3} h => by
    funext x
    by_cases ho : ∃ q ∈ qs, Part i j q x
    · rw [(h x).1 ho]
      obtain ⟨q, hq1, hq2⟩ := ho
      obtain ⟨h3, h4, -⟩ := hq.fresh q hq1
      rcases hq2 with rfl | rfl
      · exact h3.symm
      · exact h4.symm
    · rw [(h x).2 ho]
      exact hq.rest x ho
  refine TGoes.bind (Q' := fun _ w' V' => ∃ f, TabsOk p c V' w' (m.put t f) ∧ MadeOf j V1 qs f V')
    (TGoes.onThrow (goes_list hI hr1 h1 hi hpre) ?_) ?_
  · rintro x w2 s2 V2 hr2 ⟨rfl, hx, rfl, ht⟩
    refine TGoes.lift (hdrop hr2 fun _ _ => ⟨rfl, rfl⟩) fun _ V' he => ?_
    have := hback he
    subst this
    refine ⟨rfl, hx, rfl, ht.frame rfl fun u k a b hm => ?_⟩
    rw [hq.rest _ (hold _ (h.keyLive hm))]
    exact ⟨rfl, h.value hm⟩
  · rintro _ w2 s2 V2 hr2 ⟨f, ht, hm⟩
    have hnot : ∀ x, V1 x ≠ .dead → ¬ Owns j f x := fun x ho ⟨y, c, d, hx, hoc⟩ => by
      obtain ⟨h3, h4, _⟩ := hm.made y c d hx
      rcases hoc with rfl | rfl
      · exact ho h3
      · exact ho h4
    have hqs : ∀ x, (∃ q ∈ qs, Part i j q x) → V1 x ≠ .dead := by
      rintro x ⟨q, hq1, hq2⟩
      obtain ⟨-, -, h3, h4, -⟩ := hq.fresh q hq1
      rcases hq2 with rfl | rfl
      · exact h3
      · exact h4
    refine TGoes.lift (hdrop hr2 fun q h => ?_) fun _ V3 he => ⟨f, ?_, ?_⟩
    · obtain ⟨-, -, h3, h4, -⟩ := hq.fresh q h
      exact ⟨hm.rest _ (hnot _ h3), hm.rest _ (hnot _ h4)⟩
    · refine ht.frame rfl fun u k a b hk => ?_
      have key : ∀ x, (x = ⟨i, a⟩ ∨ x = ⟨j, b⟩) → ¬ ∃ q ∈ qs, Part i j q x := by
        intro x ho hx
        by_cases hj : u = t
        · subst hj
          rw [Maps.put_self] at hk
          exact hnot x (hqs x hx) ⟨k, a, b, hk, ho⟩
        · rw [Maps.put_ne hj] at hk
          refine hold x ?_ hx
          rcases ho with rfl | rfl
          · exact h.keyLive hk
          · exact h.value hk
      rw [(he _).2 (key _ (Or.inl rfl)), (he _).2 (key _ (Or.inr rfl))]
      exact ⟨rfl, ht.value hk⟩
    · have hd : ∀ x, V1 x = .dead → V x = .dead := fun x ho => by
        rw [← hq.rest x fun hx => hqs x hx ho]; exact ho
      refine ⟨fun k => ?_, fun k a b hk => ?_, fun x ho => ?_⟩
      · rw [hm.keys k, ← Option.isSome_map, firstWith_same hq.same, Option.isSome_map]
      · obtain ⟨h3, h4, h5, q, h6, h7⟩ := hm.made k a b hk
        have hsame := firstWith_same (k := k) hq.same
        rw [h6] at hsame
        cases hps : firstWith V es k with
        | none => rw [hps] at hsame; cases hsame
        | some e =>
          rw [hps] at hsame
          injection hsame with hsame
          exact ⟨hd _ h3, hd _ h4, by rw [(he _).2 fun hx => hqs _ hx h3]; exact h5, e, rfl,
            by rw [(he _).2 fun hx => hqs _ hx h4, h7]; exact hsame⟩
      · by_cases hoq : ∃ q ∈ qs, Part i j q x
        · rw [(he x).1 hoq]
          obtain ⟨q, hq1, hq2⟩ := hoq
          obtain ⟨h3, h4, -⟩ := hq.fresh q hq1
          rcases hq2 with rfl | rfl
          · exact h3.symm
          · exact h4.symm
        · rw [(he x).2 hoq, hm.rest x ho]
          exact hq.rest x hoq

end

/-! ## Programs -/

/-- As `Serves` (C103), but the next `r` calls may also make tables of lists: table `t`, which has no entries, of pairs of objects. -/
def ServesToo (p : Params) (c : Shelf i j n) : Nat → Desk p n → Envs n → Maps i → Prop
  | 0, _, _, _ => True
  | r + 1, d, E, m => Sees p d.mem E ∧ Separate j m ∧
      (∀ t k a b, m t k = some (a, b) → Known k ∧ E.all ⟨i, a⟩ = k ∧ E.all ⟨j, b⟩ ≠ .dead) ∧
      (∀ call, Pre p (shares p d.mem) E call → ∃ out s E', result (run p call d.mem) = some (out, s) ∧
        Post p (shares p d.mem) E call out E' ∧ (EntriesKept j m E.all E'.all → ServesToo p c r { d with mem := s } E' m)) ∧
      (∀ call, TablePre j E.all m call → ∃ out d' E' m', tableResult (callD p c call d) = some (out, d') ∧
        TablePost p j E.all m call out E'.all m' ∧ (∀ e, out = .exc e → ∃ q, c.fits q = false) ∧ ServesToo p c r d' E' m') ∧
      (∀ t es, (∀ k, m t k = none) → (∀ e ∈ es, Known (E.all ⟨i, e.1⟩) ∧ E.all ⟨j, e.2⟩ ≠ .dead) →
        (∃ d' E' f, bracedD p c t es d = .ok () d' ∧ MadeOf j E.all es f E'.all ∧ ServesToo p c r d' E' (m.put t f)) ∨
        (∃ d' E', bracedD p c t es d = .throw .badAlloc d' ∧ (∃ q, c.fits q = false) ∧ E'.all = E.all ∧ ServesToo p c r d' E' m))

theorem servesToo_of (hI : Acts p I) (hS : ∀ w E, I w E → Sees p w E) : ∀ (r : Nat) {d : Desk p n} {E : Envs n} {m : Maps i},
    I d.mem E → TabsOk p c E.all d.tabs m → ServesToo p c r d E m
  | 0, _, _, _, _, _ => trivial
  | r + 1, d, E, m, hr, h => by
    refine ⟨hS _ _ hr, h.apart, fun t k a b hk => ⟨h.known hk, h.key hk, h.value hk⟩, fun call hpre => ?_, fun call hpre => ?_, fun t es hi hl => ?_⟩
    · obtain ⟨out, s', E', h1, h2, h3⟩ := hI _ _ hr call hpre
      exact ⟨out, s', E', h1, h2, fun hk => servesToo_of hI hS r h3
        (h.frame rfl fun t k a b hm => ⟨hk.1 _ ⟨t, k, a, b, hm, rfl⟩, hk.2 _ ⟨t, k, a, b, hm, rfl⟩⟩)⟩
    · have := call_ok hI (s := d.mem) ⟨E, hr, rfl⟩ h hpre
      unfold CallOk TGoes Ends at this
      cases hx : callD p c call d with
      | ok x d' =>
        rw [show callD p c call ⟨d.tabs, d.mem⟩ = _ from hx] at this
        obtain ⟨_, ⟨m', h1, h2⟩, E', h3, rfl⟩ := this
        exact ⟨_, _, E', m', rfl, h1, nofun, servesToo_of hI hS r h3 h2⟩
      | throw x d' =>
        rw [show callD p c call ⟨d.tabs, d.mem⟩ = _ from hx] at this
        obtain ⟨_, ⟨m', h1, h2, h4⟩, E', h3, rfl⟩ := this
        exact ⟨_, _, E', m', rfl, h1, fun _ _ => h4, servesToo_of hI hS r h3 h2⟩
      | ub =>
        rw [show callD p c call ⟨d.tabs, d.mem⟩ = _ from hx] at this
        exact this.elim
    · have := goes_braced (c := c) hI (s := d.mem) ⟨E, hr, rfl⟩ h hi hl
      unfold TGoes Ends at this
      cases hx : bracedD p c t es d with
      | ok x d' =>
        rw [show bracedD p c t es ⟨d.tabs, d.mem⟩ = _ from hx] at this
        obtain ⟨_, ⟨f, h1, h2⟩, E', h3, rfl⟩ := this
        exact Or.inl ⟨d', E', f, rfl, h2, servesToo_of hI hS r h3 h1⟩
      | throw x d' =>
        rw [show bracedD p c t es ⟨d.tabs, d.mem⟩ = _ from hx] at this
        obtain ⟨_, ⟨h1, h2, h4, h5⟩, E', h3, h6⟩ := this
        subst h1; subst h6
        exact Or.inr ⟨d', E', rfl, h2, h4, servesToo_of hI hS r h3 h5⟩
      | ub =>
        rw [show bracedD p c t es ⟨d.tabs, d.mem⟩ = _ from hx] at this
        exact this.elim

/-- Programs of any length that make tables of lists and use them. -/
theorem c110_programs (hp : p.Good) (c : Shelf i j n) (r : Nat) : ServesToo p c r {} (Envs.none n) fun _ _ => none := by
  obtain ⟨I, h1, h2, h3⟩ := c102_for_ever hp n
  exact servesToo_of h3 h2 r h1 ⟨fun _ => TabOk.empty, nofun, nofun, nofun⟩

/-- What is looked up in such a table: the value the first pair with this key had. -/
theorem c110_lookup {es : List (Nat × Nat)} {f : Slot (Ty i) → Option (Nat × Nat)} (h : MadeOf j V es f V') {l r : List (Nat × Nat)}
    {e : Nat × Nat} (hes : es = l ++ e :: r) (hl : ∀ q ∈ l, V ⟨i, q.1⟩ ≠ V ⟨i, e.1⟩) :
    ∃ a b, f (V ⟨i, e.1⟩) = some (a, b) ∧ V' ⟨j, b⟩ = V ⟨j, e.2⟩ := by
  have hf : firstWith V es (V ⟨i, e.1⟩) = some e := by
    unfold firstWith
    rw [hes, List.find?_append, List.find?_eq_none.2 fun q hq => by simpa using hl q hq]
    simp
  have h1 := h.keys (V ⟨i, e.1⟩)
  rw [hf] at h1
  obtain ⟨⟨a, b⟩, hab⟩ := Option.isSome_iff_exists.1 h1
  obtain ⟨-, -, -, q, h2, h3⟩ := h.made _ a b hab
  rw [hf] at h2
  injection h2 with h2
  subst h2
  exact ⟨a, b, hab, h3⟩

/-! ## Examples -/

example (r : Nat) := c110_programs params_good byArrayTight r
example (r : Nat) := c110_programs params_good byString r

/-- String 0 = "a", String 3 = "bc", Array 0 = {"a"}, Array 1 = {}. -/
def listArrays : List (Step 1) := oneArray ++ [.obj (.inner (.str (.strCtor [98, 99]))), .obj (.arr .ctor)]
def deskList : Desk params 1 := (goOn params byArray listArrays {}).2

/-- Did the construction return?  Then, what calls on tables return. -/
def tableAnswers (c : Shelf 1 0 1) (l : List TCall) : Bdlib.Deep.Res (Desk params 1) Unit → Option (Bool × List TOut)
  | .ok _ d => some (true, (goOn params c (l.map .tab) d).1)
  | .throw .badAlloc d => some (false, (goOn params c (l.map .tab) d).1)
  | _ => none

/-- `HashTable<Array<String>, String> t{{{"a"}, "bc"}, {{}, "a"}, {{"a"}, "a"}}`: two entries, and the value of {"a"} is "bc". -/
example : tableAnswers byArray [.size 0, .find 0 0, .find 0 1] (bracedD params byArray 0 [(0, 3), (1, 0), (0, 0)] deskList) =
    some (true, [.nat 2, .entry (some (5, 7)), .entry (some (6, 8))]) := by decide +kernel

example : (match bracedD params byArray 0 [(0, 3), (1, 0), (0, 0)] deskList with
    | .ok _ d => some ((World.elts (c := level params 0) d.mem : St UInt8).view 7) | _ => none) = some (some [98, 99]) := by decide +kernel

/-- Memory for four requests. -/
def listFour : Shelf 1 0 1 := { byArray with fits := fun r => decide (r < 4) }

/-- There is memory for one entry of two: the table has none. -/
example : tableAnswers listFour [.size 0, .find 0 0, .find 0 1] (bracedD params listFour 0 [(0, 3), (1, 0), (0, 0)] deskList) =
    some (false, [.nat 0, .entry none, .entry none]) := by decide +kernel

/-- The pairs are within contract. -/
example : ∀ e ∈ [(0, 3), (1, 0), (0, 0)], Known (Envs.all (n := 1)
      (((Env.empty.upd 0 (.val [97])).upd 3 (.val [98, 99]) : Env UInt8), (Env.empty.upd 0 (arr [str [97]])).upd 1 (arr [])) ⟨1, e.1⟩) ∧
    Envs.all (n := 1) (((Env.empty.upd 0 (.val [97])).upd 3 (.val [98, 99]) : Env UInt8),
      (Env.empty.upd 0 (arr [str [97]])).upd 1 (arr [])) ⟨0, e.2⟩ ≠ .dead := by
  intro e he
  simp only [List.mem_cons, List.not_mem_nil, or_false] at he
  rcases he with rfl | rfl | rfl
  · exact ⟨⟨_, rfl, fun x hx => by cases List.mem_singleton.mp hx; exact ⟨_, rfl⟩⟩, fun h => nomatch h⟩
  · exact ⟨⟨_, rfl, fun x hx => nomatch hx⟩, fun h => nomatch h⟩
  · exact ⟨⟨_, rfl, fun x hx => by cases List.mem_singleton.mp hx; exact ⟨_, rfl⟩⟩, fun h => nomatch h⟩

end Bdlib.Deep
