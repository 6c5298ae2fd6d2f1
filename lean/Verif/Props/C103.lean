import Verif.Deep.TableLogic
import Verif.Deep.Elsewhere
import Verif.Props.C102

/-!
# C103: tables whose keys and values are Strings or arrays nested to any depth

C88 has tables of Strings on the memory machine.  Here the keys are objects of any depth `i` (hashed and compared by the code
of that depth, C101), the values objects of any depth `j`, in programs with objects of all depths.
-/

namespace Bdlib.Deep
open Bdlib Bdlib.Spec Bdlib.Rca Bdlib.Hash

variable {p : Params} {i j n : Nat} {I : Mem p n → Envs n → Prop} {w w' : Tabs} {s : Mem p n} {V V' : All} {c : Shelf i j n} {m : Maps i}

theorem Maps.add_self {t : Nat} {k : Slot (Ty i)} {e : Nat × Nat} : (m.add t k e) t = fun x => if x = k then some e else m t x := by
  simp [Maps.add, Maps.put]

theorem Maps.put_ne {t u : Nat} {f : Slot (Ty i) → Option (Nat × Nat)} (h : u ≠ t) : (m.put t f) u = m u := by simp [Maps.put, h]
theorem Maps.put_self {t : Nat} {f : Slot (Ty i) → Option (Nat × Nat)} : (m.put t f) t = f := by simp [Maps.put]

theorem upd_live {x z : Name} {y : Slot (Ty x.depth)} (hy : y ≠ .dead) (h : V z ≠ .dead) : V.upd x y z ≠ .dead := by
  by_cases hz : z = x
  · subst hz; rw [All.upd_self]; exact hy
  · rw [All.upd_ne hz]; exact h

theorem took_live {r : Bool} {x z : Name} (h : V z ≠ .dead) : took p V r x z ≠ .dead := by
  unfold took
  split
  · exact upd_live (left_ne p _) h
  · exact h

theorem took_ne {r : Bool} {x z : Name} (h : r = true → z ≠ x) : took p V r x z = V z := by
  unfold took
  split
  · rename_i hr; exact All.upd_ne (h hr)
  · rfl

theorem dead_ne {x z : Name} (hx : V x = .dead) (hz : V z ≠ .dead) : z ≠ x := by rintro rfl; exact hz hx

theorem TabsOk.key (h : TabsOk p c V w m) {t : Nat} {k : Slot (Ty i)} {a b : Nat} (hk : m t k = some (a, b)) : V ⟨i, a⟩ = k := (h.tab t).key hk
theorem TabsOk.known (h : TabsOk p c V w m) {t : Nat} {k : Slot (Ty i)} {a b : Nat} (hk : m t k = some (a, b)) : Known k := (h.tab t).known hk
theorem TabsOk.keyLive (h : TabsOk p c V w m) {t : Nat} {k : Slot (Ty i)} {a b : Nat} (hk : m t k = some (a, b)) : V ⟨i, a⟩ ≠ .dead := by
  rw [h.key hk]; exact known_ne (h.known hk)
theorem TabsOk.value (h : TabsOk p c V w m) {t : Nat} {k : Slot (Ty i)} {a b : Nat} (hk : m t k = some (a, b)) : V ⟨j, b⟩ ≠ .dead :=
  (h.tab t).value hk

theorem TabsOk.frame (h : TabsOk p c V w m) (hw : w'.tab = w.tab)
    (hf : ∀ t k a b, m t k = some (a, b) → V' ⟨i, a⟩ = V ⟨i, a⟩ ∧ V' ⟨j, b⟩ ≠ .dead) : TabsOk p c V' w' m :=
  ⟨fun t => by rw [hw]; exact (h.tab t).frame (hf t), h.apart⟩

/-- New objects are not those of an entry. -/
theorem TabsOk.fresh (h : TabsOk p c V w m) {x : Name} (hx : V x = .dead) {t : Nat} {k : Slot (Ty i)} {a b : Nat} (hk : m t k = some (a, b)) :
    (⟨i, a⟩ : Name) ≠ x ∧ (⟨j, b⟩ : Name) ≠ x := ⟨dead_ne hx (h.keyLive hk), dead_ne hx (h.value hk)⟩

theorem separate_add (h : Separate j m) {t : Nat} {k : Slot (Ty i)} {a b : Nat} (hab : (⟨i, a⟩ : Name) ≠ ⟨j, b⟩)
    (hn : ∀ u l x y, m u l = some (x, y) → (⟨i, x⟩ : Name) ≠ ⟨i, a⟩ ∧ (⟨j, y⟩ : Name) ≠ ⟨i, a⟩ ∧ (⟨i, x⟩ : Name) ≠ ⟨j, b⟩ ∧ (⟨j, y⟩ : Name) ≠ ⟨j, b⟩) :
    Separate j (m.add t k (a, b)) := by
  have hc : ∀ u l x y, (m.add t k (a, b)) u l = some (x, y) → (u = t ∧ l = k ∧ x = a ∧ y = b) ∨ m u l = some (x, y) := by
    intro u l x y hjl
    unfold Maps.add Maps.put at hjl
    by_cases hj : u = t
    · subst hj
      rw [if_pos rfl] at hjl
      by_cases hl : l = k
      · rw [if_pos hl] at hjl
        injection hjl with e; injection e with e1 e2
        exact Or.inl ⟨rfl, hl, e1.symm, e2.symm⟩
      · rw [if_neg hl] at hjl; exact Or.inr hjl
    · rw [if_neg hj] at hjl; exact Or.inr hjl
  refine ⟨fun {i1 j1 k1 l1 a1 b1 c1 d1} h1 h2 => ?_, fun {i1 j1 k1 l1 a1 b1 d1} h1 h2 => ?_, fun {i1 j1 k1 l1 a1 b1 c1} h1 h2 => ?_⟩
  · rcases hc _ _ _ _ h1 with ⟨_, _, h3, h4⟩ | h3 <;> rcases hc _ _ _ _ h2 with ⟨_, _, h5, h6⟩ | h5
    · rw [h3, h6]; exact hab
    · rw [h3]; exact fun e => (hn _ _ _ _ h5).2.1 e.symm
    · rw [h6]; exact (hn _ _ _ _ h3).2.2.1
    · exact h.keyValue h3 h5
  · rcases hc _ _ _ _ h1 with ⟨h7, h8, h3, h4⟩ | h3 <;> rcases hc _ _ _ _ h2 with ⟨h9, h10, h5, h6⟩ | h5
    · exact ⟨h7.trans h9.symm, h8.trans h10.symm⟩
    · exact absurd (by rw [h3]) (hn _ _ _ _ h5).1
    · exact absurd (by rw [h5]) (hn _ _ _ _ h3).1
    · exact h.keys h3 h5
  · rcases hc _ _ _ _ h1 with ⟨h7, h8, h3, h4⟩ | h3 <;> rcases hc _ _ _ _ h2 with ⟨h9, h10, h5, h6⟩ | h5
    · exact ⟨h7.trans h9.symm, h8.trans h10.symm⟩
    · exact absurd (by rw [h4]) (hn _ _ _ _ h5).2.2.2
    · exact absurd (by rw [h6]) (hn _ _ _ _ h3).2.2.2
    · exact h.values h3 h5

/-- Fewer entries. -/
theorem separate_less {m' : Maps i} (h : Separate j m) (hs : ∀ t k e, m' t k = some e → m t k = some e) : Separate j m' :=
  ⟨fun h1 h2 => h.keyValue (hs _ _ _ h1) (hs _ _ _ h2), fun h1 h2 => h.keys (hs _ _ _ h1) (hs _ _ _ h2),
    fun h1 h2 => h.values (hs _ _ _ h1) (hs _ _ _ h2)⟩

theorem TabsOk.add (h : TabsOk p c V w m) {t : Nat} {k : Slot (Ty i)} {a b : Nat} {u : UMap Nat Nat} {r : Nat} (hab : (⟨i, a⟩ : Name) ≠ ⟨j, b⟩)
    (hn : ∀ u l x y, m u l = some (x, y) → (⟨i, x⟩ : Name) ≠ ⟨i, a⟩ ∧ (⟨j, y⟩ : Name) ≠ ⟨i, a⟩ ∧ (⟨i, x⟩ : Name) ≠ ⟨j, b⟩ ∧ (⟨j, y⟩ : Name) ≠ ⟨j, b⟩)
    (ht : TabOk p c V u fun x => if x = k then some (a, b) else m t x) :
    TabsOk p c V { w with tab := setFn w.tab t u, asked := r } (m.add t k (a, b)) := by
  refine ⟨fun v => ?_, separate_add h.apart hab hn⟩
  by_cases hj : v = t
  · subst hj
    rw [Maps.add_self]
    show TabOk p c V (setFn w.tab v u v) _
    rw [setFn_same]
    exact ht
  · show TabOk p c V (setFn w.tab t u v) _
    rw [setFn_ne _ _ hj]
    show TabOk p c V _ ((m.put t _) v)
    rw [Maps.put_ne hj]
    exact h.tab v

/-! ## The functions -/

section
variable (hI : Acts p I)
include hI

theorem goes_drop (hr : Stands I s V) {a b : Nat} (ha : V ⟨i, a⟩ ≠ .dead) (hb : V ⟨j, b⟩ ≠ .dead) (hab : (⟨i, a⟩ : Name) ≠ ⟨j, b⟩) :
    Goes I (dropD p c (a, b)) s fun _ V' => V' = (V.upd ⟨j, b⟩ .dead).upd ⟨i, a⟩ .dead := by
  unfold dropD
  refine Goes.bind (goes_delete hI c.value hr hb) fun _ s6 V6 hr6 e => ?_
  subst e
  exact goes_delete hI c.key hr6 (by rw [All.upd_ne hab]; exact ha)

theorem goes_contains (hr : Stands I s V) (h : TabsOk p c V w m) {t k : Nat} (hk : Known (V ⟨i, k⟩)) {X : Exc → Tabs → All → Prop} :
    TGoes I (containsD p c t k) w s (fun b w' V' => b = (m t (V ⟨i, k⟩)).isSome ∧ w' = w ∧ V' = V) X := by
  unfold containsD
  refine TGoes.get ?_
  by_cases he : isEmpty (w.tab t) = true
  · rw [if_pos he]
    refine TGoes.pure hr ⟨?_, rfl, rfl⟩
    cases hf : m t (V ⟨i, k⟩) with
    | none => rfl
    | some e =>
      have hm := ((h.tab t).rep _ e).1 hf
      have hc := (h.tab t).wf.count
      unfold isEmpty at he
      rw [of_decide_eq_true he] at hc
      rw [List.length_eq_zero_iff.1 hc.symm] at hm
      cases hm.1
  · rw [if_neg he]
    refine TGoes.obj (goes_look hI hr (h.tab t) hk) fun r s1 V1 hr1 e => ?_
    obtain ⟨rfl, rfl⟩ := e
    exact TGoes.pure hr1 ⟨rfl, rfl, rfl⟩

theorem goes_index (hr : Stands I s V) (h : TabsOk p c V w m) {t k : Nat} {rk : Bool} (hk : Known (V ⟨i, k⟩))
    (hn : rk = true → ¬ KeyIn m ⟨i, k⟩) :
    TGoes I (indexD p c t rk k) w s
      (fun b w' V' => (∃ a, m t (V ⟨i, k⟩) = some (a, b) ∧ w' = w ∧ V' = V) ∨
        (m t (V ⟨i, k⟩) = none ∧ ∃ a m', AddsEntry p j V m t rk k a b V' m' ∧ TabsOk p c V' w' m'))
      (fun e w' V' => m t (V ⟨i, k⟩) = none ∧ AddsNone p V m rk k (.exc e) V' m ∧ TabsOk p c V' w' m ∧ ∃ r, c.fits r = false) := by
  have hlk : V ⟨i, k⟩ ≠ .dead := known_ne hk
  unfold indexD
  refine TGoes.get ?_
  refine TGoes.obj (goes_hash hI c.key hr hk) fun hc s1 V1 hr1 e => ?_
  obtain ⟨e, e2⟩ := e
  replace e2 := e2.symm
  subst e2
  rw [e]
  refine TGoes.obj (goes_scan hI hk _ hr1 fun e he => (h.tab t).wf.good _ e he) fun r s2 V2 hr2 e => ?_
  obtain ⟨e1, e2⟩ := e
  replace e2 := e2.symm
  subst e2
  have hf : r = m t (V ⟨i, k⟩) := e1.trans ((h.tab t).find hk)
  cases r with
  | some e => exact TGoes.pure hr2 (Or.inl ⟨e.1, hf.symm, rfl, rfl⟩)
  | none =>
    dsimp only
    refine TGoes.ask hr2 ?_ fun hx => ⟨hf.symm, ⟨rfl, rfl, Or.inl rfl⟩, h.frame rfl fun i k a b hm => ⟨rfl, h.value hm⟩, hx⟩
    -- the key of the node
    have hkey : Goes I (c.key.lift (if rk then (tower p i).newMove k else (tower p i).newCopy k)) s2
        (fun a V' => V ⟨i, a⟩ = .dead ∧ V' = (took p V rk ⟨i, k⟩).upd ⟨i, a⟩ (V ⟨i, k⟩)) := by
      cases rk with
      | true => exact goes_newMove hI c.key hr2 hlk
      | false => exact goes_newCopy hI c.key hr2 hlk
    refine TGoes.obj hkey fun a s3 V3 hr3 e => ?_
    obtain ⟨ha, rfl⟩ := e
    have hka : (⟨i, k⟩ : Name) ≠ ⟨i, a⟩ := dead_ne ha hlk
    refine TGoes.obj (goes_new hI c.value hr3) fun b s4 V4 hr4 e => ?_
    obtain ⟨hb, rfl⟩ := e
    have hab : (⟨i, a⟩ : Name) ≠ ⟨j, b⟩ := dead_ne hb (by rw [All.upd_self]; exact hlk)
    have hb' : V ⟨j, b⟩ = .dead := by
      rw [All.upd_ne (fun e => hab e.symm)] at hb
      cases hbe : V ⟨j, b⟩ with
      | dead => rfl
      | unspec => exact absurd hb (took_live (by rw [hbe]; nofun))
      | val x => exact absurd hb (took_live (by rw [hbe]; nofun))
    -- the tables with the new objects
    have hfr : ∀ t l x y, m t l = some (x, y) → (((took p V rk ⟨i, k⟩).upd ⟨i, a⟩ (V ⟨i, k⟩)).upd ⟨j, b⟩ (.val [])) ⟨i, x⟩ = V ⟨i, x⟩ ∧
        (((took p V rk ⟨i, k⟩).upd ⟨i, a⟩ (V ⟨i, k⟩)).upd ⟨j, b⟩ (.val [])) ⟨j, y⟩ ≠ .dead := fun t l x y hm => by
      refine ⟨?_, upd_live nofun (upd_live hlk (took_live (h.value hm)))⟩
      rw [All.upd_ne (h.fresh hb' hm).1, All.upd_ne (h.fresh ha hm).1]
      exact took_ne fun hrk e => hn hrk ⟨t, l, x, y, hm, e.symm⟩
    have hnew : ∀ u l x y, m u l = some (x, y) → (⟨i, x⟩ : Name) ≠ ⟨i, a⟩ ∧ (⟨j, y⟩ : Name) ≠ ⟨i, a⟩ ∧ (⟨i, x⟩ : Name) ≠ ⟨j, b⟩ ∧ (⟨j, y⟩ : Name) ≠ ⟨j, b⟩ :=
      fun u l x y hm => ⟨(h.fresh ha hm).1, (h.fresh ha hm).2, (h.fresh hb' hm).1, (h.fresh hb' hm).2⟩
    generalize hE : ((took p V rk ⟨i, k⟩).upd ⟨i, a⟩ (V ⟨i, k⟩)).upd ⟨j, b⟩ (.val []) = V2 at *
    have hva : V2 ⟨i, a⟩ = V ⟨i, k⟩ := by rw [← hE, All.upd_ne hab, All.upd_self]
    have hvb : V2 ⟨j, b⟩ ≠ .dead := by rw [← hE, All.upd_self]; nofun
    have hla : V2 ⟨i, a⟩ ≠ .dead := by rw [hva]; exact hlk
    have hh : hashOf p (V ⟨i, k⟩) = (keys p c V2).hash a := by
      unfold keys; dsimp only; rw [hva]
    have h2 : TabsOk p c V2 w m := h.frame rfl hfr
    have hne : AddsEntry p j V m t rk k a b V2 (m.add t (V ⟨i, k⟩) (a, b)) := ⟨ha, hb', hab, hE.symm, rfl⟩
    cases hg : c.grow (w.tab t).count (w.tab t).n with
    | none =>
      refine TGoes.set (TGoes.pure hr4 (Or.inr ⟨hf.symm, a, _, hne, ?_⟩))
      refine h2.add hab hnew ?_
      rw [hh]
      exact (h2.tab t).push hk hva hvb hf.symm
    | some r =>
      refine TGoes.bind (Q' := fun _ w' V' => V' = V2 ∧ w'.tab = w.tab) (TGoes.onThrow
        (X' := fun e w' V' => e = .badAlloc ∧ V' = V2 ∧ w'.tab = w.tab ∧ ∃ r, c.fits r = false) ?_ ?_) ?_
      · exact TGoes.asks hr4 ⟨rfl, rfl⟩ fun hx => ⟨rfl, rfl, rfl, hx⟩
      · rintro e w5 s5 V5 hr5 ⟨rfl, rfl, hw5, hx⟩
        refine TGoes.lift (goes_drop hI hr5 hla hvb hab) fun _ V' e => ?_
        have hback : V' = took p V rk ⟨i, k⟩ := by
          rw [e, ← hE, All.upd_upd]
          rw [All.upd_id (show (((took p V rk ⟨i, k⟩).upd ⟨i, a⟩ (V ⟨i, k⟩)) ⟨j, b⟩ = .dead) from ?_)]
          · rw [All.upd_upd, All.upd_id]
            rw [took_ne (fun _ => hka.symm), ha]
          · rw [All.upd_ne hab.symm, took_ne (fun _ e => dead_ne hb' hlk e.symm), hb']
        refine ⟨hf.symm, ⟨rfl, rfl, ?_⟩, h.frame hw5 fun u l x y hm => ?_, hx⟩
        · rw [hback]
          unfold took
          cases rk with
          | true => exact Or.inr ⟨rfl, rfl⟩
          | false => exact Or.inl rfl
        · rw [hback]
          exact ⟨took_ne fun hrk e => hn hrk ⟨u, l, x, y, hm, e.symm⟩, took_live (h.value hm)⟩
      · rintro _ w5 s5 V5 hr5 ⟨rfl, hw5⟩
        refine TGoes.obj (goes_refill (c := c) hI _ _ hr5 fun e he => entries_ok (h2.tab t).wf he) fun u s6 V6 hr6 e => ?_
        obtain ⟨rfl, rfl⟩ := e
        refine TGoes.set (TGoes.pure hr6 (Or.inr ⟨hf.symm, a, _, hne, ?_⟩))
        have h5 : TabsOk p c V6 w5 m := h2.frame hw5 fun i k a b hm => ⟨rfl, h2.value hm⟩
        refine h5.add hab hnew ?_
        rw [hh]
        exact ((h2.tab t).rehash r).push hk hva hvb hf.symm

theorem goes_give (hr : Stands I s V) {b v : Nat} {rv : Bool} (hb : V ⟨j, b⟩ ≠ .dead) (hv' : V ⟨j, v⟩ ≠ .dead) (hne : b ≠ v) :
    Goes I (c.value.lift (if rv then (tower p j).assignMove b v else (tower p j).assign b v)) s (fun _ V' => Gives p j rv b v V V') := by
  cases rv with
  | true => exact goes_assignMove hI c.value hr hb hv' hne
  | false => exact goes_assign hI c.value hr hb hv'

/-- What a call has to do. -/
def CallOk (I : Mem p n → Envs n → Prop) (c : Shelf i j n) (w : Tabs) (s : Mem p n) (V : All) (m : Maps i) (call : TCall) : Prop :=
  TGoes I (callD p c call) w s (fun x w' V' => ∃ m', TablePost p j V m call (.ret x) V' m' ∧ TabsOk p c V' w' m')
    (fun e w' V' => ∃ m', TablePost p j V m call (.exc e) V' m' ∧ TabsOk p c V' w' m' ∧ ∃ r, c.fits r = false)

theorem insert_ok (hr : Stands I s V) (h : TabsOk p c V w m) {t k v : Nat} {rk rv : Bool} (hpre : TablePre j V m (.insert t rk rv k v)) :
    CallOk I c w s V m (.insert t rk rv k v) := by
  obtain ⟨hk, hlv, hnk, hnv⟩ := hpre
  refine TGoes.bind (Q' := fun x w' V' => ∃ m', TablePost p j V m (.insert t rk rv k v) (.ret (.bool x)) V' m' ∧ TabsOk p c V' w' m') ?_
    fun a w' s' V' hr h => TGoes.pure hr h
  unfold insertD
  refine TGoes.bind (goes_contains hI hr h hk) fun x w1 s1 V1 hr1 e => ?_
  obtain ⟨rfl, rfl, e⟩ := e
  replace e := e.symm
  subst e
  cases hf : m t (V ⟨i, k⟩) with
  | some e =>
    refine TGoes.pure hr1 ⟨m, ?_, h⟩
    unfold TablePost; dsimp only; rw [hf]
    exact ⟨rfl, rfl, rfl⟩
  | none =>
    refine TGoes.bind (Q' := fun b w' V' => ∃ a m', AddsEntry p j V m t rk k a b V' m' ∧ TabsOk p c V' w' m')
      (TGoes.mono (goes_index hI hr1 h (t := t) hk hnk) (fun b w2 V2 hq => ?_) fun e w2 V2 hq => ?_) fun b w2 s2 V2 hr2 hq => ?_
    · rcases hq with ⟨a, hq, _⟩ | hq
      · rw [hf] at hq; cases hq
      · exact hq.2
    · obtain ⟨h1, h2, h3, h4⟩ := hq
      refine ⟨m, ?_, h3, h4⟩
      unfold TablePost; dsimp only; rw [hf]
      exact Or.inr h2
    · obtain ⟨a, m', hne, hok⟩ := hq
      obtain ⟨ha, hb, hab, he2, hm'⟩ := id hne
      have hbv : b ≠ v := fun e => dead_ne hb hlv (by rw [e])
      have hav : (⟨i, a⟩ : Name) ≠ ⟨j, v⟩ := (dead_ne ha hlv).symm
      have hmb : m' t (V ⟨i, k⟩) = some (a, b) := by rw [hm', Maps.add_self]; simp
      have hlb : V2 ⟨j, b⟩ ≠ .dead := hok.value hmb
      have hlv2 : V2 ⟨j, v⟩ ≠ .dead := by
        rw [he2]; exact upd_live nofun (upd_live (known_ne hk) (took_live hlv))
      refine TGoes.obj (goes_give hI hr2 hlb hlv2 hbv) fun _ s3 V3 hr3 e => ?_
      refine TGoes.pure hr3 ⟨m', ?_, hok.frame rfl fun u l x y hm => ?_⟩
      · unfold TablePost; dsimp only; rw [hf]
        exact Or.inl ⟨a, b, V2, hne, e, rfl⟩
      · unfold Gives at e
        rw [e]
        refine ⟨?_, upd_live hlv2 (took_live (hok.value hm))⟩
        rw [All.upd_ne (hok.apart.keyValue hm hmb)]
        refine took_ne fun hrv hxv => ?_
        rw [hm'] at hm
        unfold Maps.add Maps.put at hm
        split at hm
        · dsimp only at hm
          split at hm
          · injection hm with hm; injection hm with hm _
            exact hav (by rw [hm]; exact hxv)
          · rename_i hj hl
            subst hj; exact hnv hrv ⟨_, _, _, _, hm, hxv.symm⟩
        · exact hnv hrv ⟨_, _, _, _, hm, hxv.symm⟩

theorem index_ok (hr : Stands I s V) (h : TabsOk p c V w m) {t k : Nat} {rk : Bool} (hpre : TablePre j V m (.index t rk k)) :
    CallOk I c w s V m (.index t rk k) := by
  obtain ⟨hk, hnk⟩ := hpre
  refine TGoes.bind (Q' := fun x w' V' => ∃ m', TablePost p j V m (.index t rk k) (.ret (.obj x)) V' m' ∧ TabsOk p c V' w' m') ?_
    fun a w' s' V' hr h => TGoes.pure hr h
  refine TGoes.mono (goes_index hI hr h (t := t) hk hnk) (fun b w2 V2 hq => ?_) fun e w2 V2 hq => ?_
  · rcases hq with ⟨a, hq, rfl, rfl⟩ | ⟨hq, a, m', h1, h2⟩
    · exact ⟨m, by unfold TablePost; dsimp only; rw [hq]; exact ⟨rfl, rfl, rfl⟩, h⟩
    · exact ⟨m', by unfold TablePost; dsimp only; rw [hq]; exact Or.inl ⟨a, b, h1, rfl⟩, h2⟩
  · obtain ⟨h1, h2, h3, h4⟩ := hq
    exact ⟨m, by unfold TablePost; dsimp only; rw [h1]; exact Or.inr h2, h3, h4⟩

theorem contains_ok (hr : Stands I s V) (h : TabsOk p c V w m) {t k : Nat} (hk : Known (V ⟨i, k⟩)) :
    CallOk I c w s V m (.contains t k) := by
  refine TGoes.bind (goes_contains hI hr h hk) fun x w1 s1 V1 hr1 e => ?_
  obtain ⟨rfl, rfl, rfl⟩ := e
  exact TGoes.pure hr1 ⟨m, ⟨rfl, rfl, rfl⟩, h⟩

theorem find_ok (hr : Stands I s V) (h : TabsOk p c V w m) {t k : Nat} (hk : Known (V ⟨i, k⟩)) :
    CallOk I c w s V m (.find t k) := by
  refine TGoes.get (TGoes.obj (goes_look hI hr (h.tab t) hk) fun r s1 V1 hr1 e => ?_)
  obtain ⟨rfl, rfl⟩ := e
  exact TGoes.pure hr1 ⟨m, ⟨rfl, rfl, rfl⟩, h⟩

theorem getValue_ok (hr : Stands I s V) (h : TabsOk p c V w m) {t k : Nat} (hk : Known (V ⟨i, k⟩)) :
    CallOk I c w s V m (.getValue t k) := by
  refine TGoes.bind (Q' := fun x w' V' => ∃ m', TablePost p j V m (.getValue t k) (.ret (.obj x)) V' m' ∧ TabsOk p c V' w' m') ?_
    fun a w' s' V' hr h => TGoes.pure hr h
  refine TGoes.get (TGoes.obj (goes_look hI hr (h.tab t) hk) fun r s1 V1 hr1 e => ?_)
  obtain ⟨rfl, e⟩ := e
  replace e := e.symm
  subst e
  have hfr : ∀ o x, V ⟨j, o⟩ = .dead → x ≠ Slot.dead → TabsOk p c (V.upd ⟨j, o⟩ x) w m := fun o x ho hx =>
    h.frame rfl fun u l y z hm => ⟨All.upd_ne (h.fresh ho hm).1, upd_live hx (h.value hm)⟩
  cases hf : m t (V ⟨i, k⟩) with
  | none =>
    refine TGoes.lift (goes_new hI c.value hr1) fun o V' e => ?_
    obtain ⟨ho, rfl⟩ := e
    exact ⟨m, ⟨o, ho, rfl, rfl, by rw [hf]⟩, hfr o _ ho nofun⟩
  | some e =>
    refine TGoes.lift (goes_newCopy hI c.value hr1 ((h.tab t).value hf)) fun o V' e => ?_
    obtain ⟨ho, rfl⟩ := e
    exact ⟨m, ⟨o, ho, rfl, rfl, by rw [hf]⟩, hfr o _ ho ((h.tab t).value hf)⟩

theorem remove_ok (hr : Stands I s V) (h : TabsOk p c V w m) {t k : Nat} (hk : Known (V ⟨i, k⟩)) :
    CallOk I c w s V m (.remove t k) := by
  refine TGoes.bind (Q' := fun x w' V' => ∃ m', TablePost p j V m (.remove t k) (.ret (.bool x)) V' m' ∧ TabsOk p c V' w' m') ?_
    fun a w' s' V' hr h => TGoes.pure hr h
  unfold removeD
  refine TGoes.get ?_
  by_cases he : isEmpty (w.tab t) = true
  · rw [if_pos he]
    refine TGoes.pure hr ⟨m, ?_, h⟩
    cases hf : m t (V ⟨i, k⟩) with
    | none => unfold TablePost; dsimp only; rw [hf]; exact ⟨rfl, rfl, rfl⟩
    | some e =>
      have hm := ((h.tab t).rep _ e).1 hf
      have hc := (h.tab t).wf.count
      unfold isEmpty at he
      rw [of_decide_eq_true he] at hc
      rw [List.length_eq_zero_iff.1 hc.symm] at hm
      cases hm.1
  rw [if_neg he]
  refine TGoes.obj (goes_bucket hI hr hk (w.tab t)) fun x s1 V1 hr1 e => ?_
  obtain ⟨rfl, e⟩ := e
  replace e := e.symm
  subst e
  refine TGoes.obj (goes_scan hI hk _ hr1 fun e he => (h.tab t).wf.good _ e he) fun r s2 V2 hr2 e => ?_
  obtain ⟨e1, e⟩ := e
  replace e := e.symm
  subst e
  have hf : r = m t (V ⟨i, k⟩) := e1.trans ((h.tab t).find hk)
  cases r with
  | none => exact TGoes.pure hr2 ⟨m, by unfold TablePost; dsimp only; rw [← hf]; exact ⟨rfl, rfl, rfl⟩, h⟩
  | some e =>
    obtain ⟨a, b⟩ := e
    have hf := hf.symm
    have hab : (⟨i, a⟩ : Name) ≠ ⟨j, b⟩ := h.apart.keyValue hf hf
    refine TGoes.set (TGoes.obj (goes_drop hI hr2 (h.keyLive hf) (h.value hf) hab) fun _ s3 V3 hr3 e => ?_)
    subst e
    refine TGoes.pure hr3 ⟨m.del t (V ⟨i, k⟩), by unfold TablePost; dsimp only; rw [hf]; exact ⟨rfl, rfl, rfl⟩, ?_⟩
    have hless : ∀ u l q, (m.del t (V ⟨i, k⟩)) u l = some q → m u l = some q ∧ ¬ (u = t ∧ l = V ⟨i, k⟩) := fun u l q hq => by
      unfold Maps.del Maps.put at hq
      split at hq
      · dsimp only at hq
        split at hq
        · cases hq
        · rename_i h1 h2; subst h1; exact ⟨hq, fun h3 => h2 h3.2⟩
      · rename_i h1; exact ⟨hq, fun h3 => h1 h3.1⟩
    have hmid : TabsOk p c V { w with tab := setFn w.tab t (UMap.mk (w.tab t).n (setFn (w.tab t).bkt
        ((keys p c V).hash k % (w.tab t).n) (((w.tab t).bkt ((keys p c V).hash k % (w.tab t).n)).eraseP fun x => decide (x = (a, b))))
        ((w.tab t).count - 1)) } (m.del t (V ⟨i, k⟩)) := by
      refine ⟨fun u => ?_, separate_less h.apart fun u l q hq => (hless u l q hq).1⟩
      by_cases hj : u = t
      · subst hj
        show TabOk p c V (setFn w.tab u _ u) _
        rw [setFn_same]
        unfold Maps.del
        rw [Maps.put_self]
        exact (h.tab u).erase hk hf
      · show TabOk p c V (setFn w.tab t _ u) _
        rw [setFn_ne _ _ hj]
        unfold Maps.del
        rw [Maps.put_ne hj]
        exact h.tab u
    refine hmid.frame rfl fun u l x y hq => ?_
    obtain ⟨h1, h2⟩ := hless _ _ _ hq
    refine ⟨?_, ?_⟩
    · rw [All.upd_ne fun e => h2 (h.apart.keys (by injection e with _ e; exact e ▸ h1) hf), All.upd_ne (h.apart.keyValue h1 hf)]
    · rw [All.upd_ne fun e => h.apart.keyValue hf h1 e.symm, All.upd_ne fun e => h2 (h.apart.values (by injection e with _ e; exact e ▸ h1) hf)]
      exact h.value h1

omit hI in
theorem size_ok (hr : Stands I s V) (h : TabsOk p c V w m) {t : Nat} : CallOk I c w s V m (.size t) := by
  refine TGoes.get (TGoes.pure hr ⟨m, ⟨(w.tab t).entries.map fun e => V ⟨i, e.1⟩, ?_, fun k => ?_, ?_, rfl, rfl⟩, h⟩)
  · exact List.pairwise_map.2 ((entries_once (keys_laws ..) (h.tab t).wf).imp fun {a b} hab => by unfold keys at hab; exact of_decide_eq_false hab)
  · rw [List.mem_map]
    constructor
    · rintro ⟨e, he, rfl⟩
      rw [(h.tab t).bound he]; rfl
    · intro hk
      obtain ⟨e, he⟩ := Option.isSome_iff_exists.1 hk
      obtain ⟨h1, h2⟩ := ((h.tab t).rep k e).1 he
      exact ⟨e, h1, h2⟩
  · rw [List.length_map, ← (h.tab t).wf.count]; rfl

omit hI in
theorem isEmpty_ok (hr : Stands I s V) (h : TabsOk p c V w m) {t : Nat} : CallOk I c w s V m (.isEmpty t) := by
  refine TGoes.get (TGoes.pure hr ⟨m, ⟨_, rfl, ?_, rfl, rfl⟩, h⟩)
  unfold isEmpty
  rw [decide_eq_true_eq, (h.tab t).wf.count, List.length_eq_zero_iff]
  constructor
  · intro he k
    cases hk : m t k with
    | none => rfl
    | some e => have := (((h.tab t).rep k e).1 hk).1; rw [he] at this; cases this
  · intro hn
    cases he : (w.tab t).entries with
    | nil => rfl
    | cons e l =>
      have hk := (h.tab t).bound (e := e) (by rw [he]; exact List.mem_cons_self ..)
      rw [hn] at hk; cases hk

omit hI in
theorem entries_nodup {t : UMap Nat Nat} {f : Slot (Ty i) → Option (Nat × Nat)} (h : TabOk p c V t f) : t.entries.Nodup :=
  (entries_once (keys_laws ..) h.wf).imp fun {a b} hab e => by
    rw [e] at hab; unfold keys at hab; simp at hab

omit hI in
theorem iterate_ok (hr : Stands I s V) (h : TabsOk p c V w m) {t : Nat} : CallOk I c w s V m (.iterate t) := by
  refine TGoes.get (TGoes.pure hr ⟨m, ⟨_, rfl, entries_nodup (h.tab t), fun e => ?_, rfl, rfl⟩, h⟩)
  constructor
  · intro he; exact ⟨_, (h.tab t).bound he⟩
  · rintro ⟨k, hk⟩; exact (((h.tab t).rep k e).1 hk).1

/-! ## Whole tables -/

/-- The object is one of an entry. -/
def Part (i j : Nat) (e : Nat × Nat) (x : Name) : Prop := x = ⟨i, e.1⟩ ∨ x = ⟨j, e.2⟩

theorem goes_dropAll : ∀ (l : List (Nat × Nat)) {s : Mem p n} {V : All}, Stands I s V →
    (∀ e ∈ l, V ⟨i, e.1⟩ ≠ .dead ∧ V ⟨j, e.2⟩ ≠ .dead ∧ (⟨i, e.1⟩ : Name) ≠ ⟨j, e.2⟩) →
    (l.Pairwise fun e q => ∀ x, Part i j e x → ¬ Part i j q x) →
    Goes I (dropAllD p c l) s (fun _ V' => ∀ x, ((∃ e ∈ l, Part i j e x) → V' x = .dead) ∧ ((¬ ∃ e ∈ l, Part i j e x) → V' x = V x))
  | [], s, V, hr, _, _ => Goes.pure hr fun x => ⟨fun ⟨e, h, _⟩ => (nomatch h), fun _ => rfl⟩
  | e :: l, s, V, hr, hl, hpw => by
    obtain ⟨h1, h2, h3⟩ := hl e (List.mem_cons_self ..)
    rw [List.pairwise_cons] at hpw
    unfold dropAllD
    refine Goes.bind (goes_drop hI hr h1 h2 h3) fun _ s1 V1 hr1 e => ?_
    subst e
    have hout : ∀ x, ¬ Part i j e x → ((V.upd ⟨j, e.2⟩ .dead).upd ⟨i, e.1⟩ .dead) x = V x := fun x hx => by
      rw [All.upd_ne fun h => hx (Or.inl h), All.upd_ne fun h => hx (Or.inr h)]
    refine Goes.mono (goes_dropAll l hr1 (fun q hq => ?_) hpw.2) fun _ V' h x => ?_
    · obtain ⟨h4, h5, h6⟩ := hl q (List.mem_cons_of_mem _ hq)
      refine ⟨?_, ?_, h6⟩
      · rw [hout _ fun hx => hpw.1 q hq _ hx (Or.inl rfl)]; exact h4
      · rw [hout _ fun hx => hpw.1 q hq _ hx (Or.inr rfl)]; exact h5
    · obtain ⟨h4, h5⟩ := h x
      by_cases ho : ∃ q ∈ l, Part i j q x
      · refine ⟨fun _ => h4 ho, fun hn => ?_⟩
        obtain ⟨q, hq, hqo⟩ := ho
        exact absurd ⟨q, List.mem_cons_of_mem _ hq, hqo⟩ hn
      · rw [h5 ho]
        constructor
        · rintro ⟨q, hq, hqo⟩
          rcases List.mem_cons.1 hq with rfl | hq
          · rcases hqo with rfl | rfl
            · exact All.upd_self
            · rw [All.upd_ne h3.symm, All.upd_self]
          · exact absurd ⟨q, hq, hqo⟩ ho
        · intro hn
          exact hout x fun hx => hn ⟨e, List.mem_cons_self .., hx⟩

omit hI in
theorem owns_iff {t : UMap Nat Nat} {f : Slot (Ty i) → Option (Nat × Nat)} (h : TabOk p c V t f) {x : Name} :
    Owns j f x ↔ ∃ e ∈ t.entries, Part i j e x := by
  constructor
  · rintro ⟨k, a, b, h1, h2⟩; exact ⟨(a, b), ((h.rep k _).1 h1).1, h2⟩
  · rintro ⟨e, he, ho⟩; exact ⟨_, e.1, e.2, h.bound he, ho⟩

omit hI in
/-- The other tables do not notice that one is gone. -/
theorem TabsOk.gone (h : TabsOk p c V w m) {t : Nat} (hg : GoneWith j (m t) V V') {u : UMap Nat Nat} {r : Nat}
    (ht : TabOk p c V' u fun _ => none) : TabsOk p c V' { w with tab := setFn w.tab t u, asked := r } (m.put t fun _ => none) := by
  refine ⟨fun v => ?_, separate_less h.apart fun v l q hq => ?_⟩
  · by_cases hj : v = t
    · subst hj
      show TabOk p c V' (setFn w.tab v _ v) _
      rw [setFn_same, Maps.put_self]; exact ht
    · show TabOk p c V' (setFn w.tab t _ v) _
      rw [setFn_ne _ _ hj, Maps.put_ne hj]
      refine (h.tab v).frame fun k a b hk => ?_
      have h1 : ¬ Owns j (m t) ⟨i, a⟩ := fun ⟨l, c, d, h1, h2⟩ => by
        rcases h2 with e | e
        · injection e with _ e; subst e; exact hj (h.apart.keys hk h1).1
        · exact h.apart.keyValue hk h1 e
      have h2 : ¬ Owns j (m t) ⟨j, b⟩ := fun ⟨l, c, d, h1, h2⟩ => by
        rcases h2 with e | e
        · exact h.apart.keyValue h1 hk e.symm
        · injection e with _ e; subst e; exact hj (h.apart.values hk h1).1
      exact ⟨(hg _).2 h1, by rw [(hg _).2 h2]; exact h.value hk⟩
  · unfold Maps.put at hq
    split at hq
    · cases hq
    · exact hq

theorem goes_clear (hr : Stands I s V) (h : TabsOk p c V w m) (t : Nat) {X : Exc → Tabs → All → Prop} :
    TGoes I (clearD p c t) w s (fun _ w' V' => GoneWith j (m t) V V' ∧ w' = { w with tab := setFn w.tab t (w.tab t).clear }) X := by
  unfold clearD
  refine TGoes.get (TGoes.set (TGoes.lift (goes_dropAll (c := c) hI _ hr (fun e he => ?_) ?_) fun _ V' e => ⟨fun x => ?_, rfl⟩))
  · have hk := (h.tab t).bound he
    exact ⟨h.keyLive hk, h.value hk, h.apart.keyValue hk hk⟩
  · refine (entries_nodup (h.tab t)).imp_of_mem fun {e q} he hq hpq => ?_
    have hk := (h.tab t).bound he
    have hl := (h.tab t).bound hq
    have hkl : V ⟨i, e.1⟩ ≠ V ⟨i, q.1⟩ := fun e => by rw [e, hl] at hk; injection hk with hk; exact hpq hk.symm
    rintro x (rfl | rfl) (e' | e')
    · injection e' with _ e'; exact hkl (h.apart.keys (a := e.1) (b := e.2) (d := q.2) hk (by rw [e']; exact hl)).2
    · exact h.apart.keyValue hk hl e'
    · exact h.apart.keyValue hl hk e'.symm
    · injection e' with _ e'; exact hkl (h.apart.values (a := e.1) (b := e.2) (c := q.1) hk (by rw [e']; exact hl)).2
  · rw [owns_iff (h.tab t)]
    exact e x

theorem clear_ok (hr : Stands I s V) (h : TabsOk p c V w m) {t : Nat} : CallOk I c w s V m (.clear t) := by
  refine TGoes.bind (goes_clear hI hr h t) fun _ w1 s1 V1 hr1 e => ?_
  obtain ⟨hg, rfl⟩ := e
  exact TGoes.pure hr1 ⟨_, ⟨rfl, hg, rfl⟩, TabsOk.gone h hg (h.tab t).clear⟩

theorem move_ok (hr : Stands I s V) (h : TabsOk p c V w m) {t u : Nat} : CallOk I c w s V m (.move t u) := by
  refine TGoes.bind (Q' := fun _ w' V' => ∃ m', TablePost p j V m (.move t u) (.ret .unit) V' m' ∧ TabsOk p c V' w' m') ?_
    fun a w' s' V' hr h => TGoes.pure hr h
  unfold moveD
  by_cases hij : t = u
  · rw [if_pos hij]
    exact TGoes.pure hr ⟨m, by unfold TablePost; dsimp only; rw [if_pos hij]; exact ⟨rfl, rfl, rfl⟩, h⟩
  rw [if_neg hij]
  refine TGoes.bind (goes_clear hI hr h t) fun _ w1 s1 V1 hr1 e => ?_
  obtain ⟨hg, rfl⟩ := e
  have h1 := TabsOk.gone (r := w.asked) h hg (h.tab t).clear
  refine TGoes.get (TGoes.set (TGoes.sets hr1 ⟨(m.put t (m u)).put u fun _ => none, ?_, fun l => ?_, ?_⟩))
  · unfold TablePost; dsimp only; rw [if_neg hij]; exact ⟨rfl, hg, rfl⟩
  · by_cases hl : l = u
    · subst hl
      rw [Maps.put_self]
      show TabOk p c V1 (setFn _ l _ l) _
      rw [setFn_same]; exact TabOk.empty
    · rw [Maps.put_ne hl]
      show TabOk p c V1 (setFn _ u _ l) _
      rw [setFn_ne _ _ hl]
      dsimp only
      by_cases hli : l = t
      · subst hli
        rw [setFn_same, Maps.put_self]
        have := h1.tab u
        rw [Maps.put_ne (fun e => hij e.symm)] at this
        exact this
      · have := h1.tab l
        rw [Maps.put_ne hli] at this ⊢
        rw [setFn_ne _ _ hli]
        exact this
  · -- the entries of `u` are those of `t` now
    have hc : ∀ x l e, ((m.put t (m u)).put u fun _ => none) x l = some e → ∃ y, m y l = some e ∧ (x = t ∧ y = u ∨ x ≠ t ∧ x ≠ u ∧ y = x) := by
      intro x l e hx
      unfold Maps.put at hx
      split at hx
      · cases hx
      · rename_i h2
        split at hx
        · rename_i h3; exact ⟨u, hx, Or.inl ⟨h3, rfl⟩⟩
        · rename_i h3; exact ⟨x, hx, Or.inr ⟨h3, h2, rfl⟩⟩
    have hinj : ∀ {x x' y y'}, (x = t ∧ y = u ∨ x ≠ t ∧ x ≠ u ∧ y = x) → (x' = t ∧ y' = u ∨ x' ≠ t ∧ x' ≠ u ∧ y' = x') → y = y' → x = x' := by
      omega
    refine ⟨fun h2 h3 => ?_, fun h2 h3 => ?_, fun h2 h3 => ?_⟩ <;> obtain ⟨y, h4, h5⟩ := hc _ _ _ h2 <;> obtain ⟨z, h6, h7⟩ := hc _ _ _ h3
    · exact h.apart.keyValue h4 h6
    · exact ⟨hinj h5 h7 (h.apart.keys h4 h6).1, (h.apart.keys h4 h6).2⟩
    · exact ⟨hinj h5 h7 (h.apart.values h4 h6).1, (h.apart.values h4 h6).2⟩

omit hI in
theorem swap_ok (hr : Stands I s V) (h : TabsOk p c V w m) {t u : Nat} : CallOk I c w s V m (.swap t u) := by
  refine TGoes.bind (Q' := fun _ w' V' => ∃ m', TablePost p j V m (.swap t u) (.ret .unit) V' m' ∧ TabsOk p c V' w' m') ?_
    fun a w' s' V' hr h => TGoes.pure hr h
  refine TGoes.get (TGoes.get (TGoes.set (TGoes.sets hr ⟨(m.put t (m u)).put u (m t), ⟨rfl, rfl, rfl⟩, fun l => ?_, ?_⟩)))
  · by_cases hl : l = u
    · subst hl
      rw [Maps.put_self]
      show TabOk p c V (setFn _ l _ l) _
      rw [setFn_same]; exact h.tab t
    · rw [Maps.put_ne hl]
      show TabOk p c V (setFn _ u _ l) _
      rw [setFn_ne _ _ hl]
      dsimp only
      by_cases hli : l = t
      · subst hli
        rw [setFn_same, Maps.put_self]
        exact h.tab u
      · rw [Maps.put_ne hli, setFn_ne _ _ hli]
        exact h.tab l
  · have hc : ∀ x l e, ((m.put t (m u)).put u (m t)) x l = some e → ∃ y, m y l = some e ∧ (x = u ∧ y = t ∨ x ≠ u ∧ x = t ∧ y = u ∨ x ≠ t ∧ x ≠ u ∧ y = x) := by
      intro x l e hx
      unfold Maps.put at hx
      split at hx
      · rename_i h2; exact ⟨t, hx, Or.inl ⟨h2, rfl⟩⟩
      · rename_i h2
        split at hx
        · rename_i h3; exact ⟨u, hx, Or.inr (Or.inl ⟨h2, h3, rfl⟩)⟩
        · rename_i h3; exact ⟨x, hx, Or.inr (Or.inr ⟨h3, h2, rfl⟩)⟩
    have hinj : ∀ {x x' y y'}, (x = u ∧ y = t ∨ x ≠ u ∧ x = t ∧ y = u ∨ x ≠ t ∧ x ≠ u ∧ y = x) →
        (x' = u ∧ y' = t ∨ x' ≠ u ∧ x' = t ∧ y' = u ∨ x' ≠ t ∧ x' ≠ u ∧ y' = x') → y = y' → x = x' := by
      omega
    refine ⟨fun h2 h3 => ?_, fun h2 h3 => ?_, fun h2 h3 => ?_⟩ <;> obtain ⟨y, h4, h5⟩ := hc _ _ _ h2 <;> obtain ⟨z, h6, h7⟩ := hc _ _ _ h3
    · exact h.apart.keyValue h4 h6
    · exact ⟨hinj h5 h7 (h.apart.keys h4 h6).1, (h.apart.keys h4 h6).2⟩
    · exact ⟨hinj h5 h7 (h.apart.values h4 h6).1, (h.apart.values h4 h6).2⟩

/-- What has been copied so far: the table has the entries `f`, which are copies of entries of `u`. -/
structure Copied (j : Nat) (m1 : Maps i) (u : Nat) (V1 : All) (f : Slot (Ty i) → Option (Nat × Nat)) (V : All) : Prop where
  made : ∀ k a' b', f k = some (a', b') → V1 ⟨i, a'⟩ = .dead ∧ V1 ⟨j, b'⟩ = .dead ∧ ∃ a b, m1 u k = some (a, b) ∧ V ⟨j, b'⟩ = V1 ⟨j, b⟩
  rest : ∀ x, ¬ Owns j f x → V x = V1 x

theorem goes_copyNodes {m1 : Maps i} {t u : Nat} {V1 : All} {w1 : Tabs} (hij : t ≠ u) (h1 : TabsOk p c V1 w1 m1) :
    ∀ (l : List (Nat × Nat)) {s : Mem p n} {V : All} {w : Tabs} {f : Slot (Ty i) → Option (Nat × Nat)}, Stands I s V →
      TabsOk p c V w (m1.put t f) → Copied j m1 u V1 f V → l.Nodup → (∀ e ∈ l, ∃ k, m1 u k = some e ∧ f k = none) →
      TGoes I (copyNodesD p c t l) w s
        (fun _ w' V' => ∃ f', TabsOk p c V' w' (m1.put t f') ∧ Copied j m1 u V1 f' V' ∧
          ∀ k, (f' k).isSome ↔ ((f k).isSome ∨ ∃ e ∈ l, m1 u k = some e))
        (fun e w' V' => e = .badAlloc ∧ (∃ r, c.fits r = false) ∧ ∃ f', TabsOk p c V' w' (m1.put t f') ∧ Copied j m1 u V1 f' V')
  | [], s, V, w, f, hr, h, hc, _, _ => TGoes.pure hr ⟨f, h, hc, fun k => ⟨Or.inl, fun hx => hx.elim id fun ⟨_, hx, _⟩ => nomatch hx⟩⟩
  | (a, b) :: l, s, V, w, f, hr, h, hc, hnd, hl => by
    obtain ⟨k, hk, hfk⟩ := hl (a, b) (List.mem_cons_self ..)
    rw [List.nodup_cons] at hnd
    have hk2 : (m1.put t f) u k = some (a, b) := by rw [Maps.put_ne hij.symm]; exact hk
    have hK : Known k := h1.known hk
    -- which objects are there
    have hlive : ∀ x, Owns j f x → V x ≠ .dead := fun x ⟨y, c, d, hx, ho⟩ => by
      have hx' : (m1.put t f) t y = some (c, d) := by rw [Maps.put_self]; exact hx
      rcases ho with rfl | rfl
      · exact h.keyLive hx'
      · exact h.value hx'
    have hnot : ∀ x, V1 x ≠ .dead → ¬ Owns j f x := fun x ho ⟨y, c, d, hx, hoc⟩ => by
      obtain ⟨h3, h4, _⟩ := hc.made y c d hx
      rcases hoc with rfl | rfl
      · exact ho h3
      · exact ho h4
    have hdead : ∀ x, V x = .dead → V1 x = .dead := fun x ho => by
      rw [← hc.rest x fun hof => hlive x hof ho]; exact ho
    have hbv : V ⟨j, b⟩ = V1 ⟨j, b⟩ := hc.rest _ (hnot _ (h1.value hk))
    unfold copyNodesD
    refine TGoes.ask hr ?_ fun hx => ⟨rfl, hx, f, h.frame rfl fun i k a b hm => ⟨rfl, h.value hm⟩, hc⟩
    refine TGoes.obj (goes_newCopy hI c.key hr (h.keyLive hk2)) fun a' s2 V2 hr2 e => ?_
    rw [h.key hk2] at e
    obtain ⟨ha, rfl⟩ := e
    have hba : (⟨j, b⟩ : Name) ≠ ⟨i, a'⟩ := (h.fresh ha hk2).2
    refine TGoes.obj (goes_newCopy hI c.value hr2 (r := b) (upd_live (known_ne hK) (h.value hk2))) fun b' s3 V3 hr3 e => ?_
    obtain ⟨hb, rfl⟩ := e
    have hab : (⟨i, a'⟩ : Name) ≠ ⟨j, b'⟩ := dead_ne hb (by rw [All.upd_self]; exact known_ne hK)
    rw [All.upd_ne hab.symm] at hb
    rw [All.upd_ne hba] at hr3
    have h2 : TabsOk p c ((V.upd ⟨i, a'⟩ k).upd ⟨j, b'⟩ (V ⟨j, b⟩)) { w with asked := w.asked + 1 } (m1.put t f) := by
      refine h.frame rfl fun i l x y hm => ?_
      rw [All.upd_ne (h.fresh hb hm).1, All.upd_ne (h.fresh ha hm).1]
      exact ⟨rfl, upd_live (h.value hk2) (upd_live (known_ne hK) (h.value hm))⟩
    have hva : ((V.upd ⟨i, a'⟩ k).upd ⟨j, b'⟩ (V ⟨j, b⟩)) ⟨i, a'⟩ = k := by rw [All.upd_ne hab, All.upd_self]
    have hvb : ((V.upd ⟨i, a'⟩ k).upd ⟨j, b'⟩ (V ⟨j, b⟩)) ⟨j, b'⟩ ≠ .dead := by rw [All.upd_self]; exact h.value hk2
    have hnew : ∀ v l x y, (m1.put t f) v l = some (x, y) → (⟨i, x⟩ : Name) ≠ ⟨i, a'⟩ ∧ (⟨j, y⟩ : Name) ≠ ⟨i, a'⟩ ∧ (⟨i, x⟩ : Name) ≠ ⟨j, b'⟩ ∧ (⟨j, y⟩ : Name) ≠ ⟨j, b'⟩ :=
      fun v l x y hm => ⟨(h.fresh ha hm).1, (h.fresh ha hm).2, (h.fresh hb hm).1, (h.fresh hb hm).2⟩
    refine TGoes.get (TGoes.obj (goes_bucket (c := c) hI hr3 (by rw [hva]; exact hK) _) fun x s4 V4 hr4 e => ?_)
    obtain ⟨rfl, e⟩ := e
    replace e := e.symm
    subst e
    have h5 := h2.add (t := t) (r := w.asked + 1) hab hnew ((h2.tab t).push hK hva hvb (by rw [Maps.put_self]; exact hfk))
    have heq : (m1.put t f).add t k (a', b') = m1.put t fun x => if x = k then some (a', b') else f x := by
      funext x y
      unfold Maps.add Maps.put
      by_cases hx : x = t
      · rw [if_pos hx, if_pos hx]; simp
      · rw [if_neg hx, if_neg hx, if_neg hx]
    rw [heq] at h5
    refine TGoes.set (TGoes.mono (goes_copyNodes hij h1 l (f := fun x => if x = k then some (a', b') else f x) hr4 h5 ?_ hnd.2 ?_) ?_ fun _ _ _ h => h)
    · refine ⟨fun x c d hx => ?_, fun o ho => ?_⟩
      · by_cases hxk : x = k
        · subst hxk
          rw [if_pos rfl] at hx
          injection hx with hx; injection hx with hx1 hx2
          subst hx1; subst hx2
          exact ⟨hdead _ ha, hdead _ hb, a, b, hk, by rw [All.upd_self, hbv]⟩
        · rw [if_neg hxk] at hx
          obtain ⟨h6, h7, y, z, h8, h9⟩ := hc.made x c d hx
          refine ⟨h6, h7, y, z, h8, ?_⟩
          have hx' : (m1.put t f) t x = some (c, d) := by rw [Maps.put_self]; exact hx
          rw [All.upd_ne (h.fresh hb hx').2, All.upd_ne (h.fresh ha hx').2, h9]
      · have ho1 : o ≠ ⟨i, a'⟩ := fun e => ho ⟨k, a', b', if_pos rfl, Or.inl e⟩
        have ho2 : o ≠ ⟨j, b'⟩ := fun e => ho ⟨k, a', b', if_pos rfl, Or.inr e⟩
        rw [All.upd_ne ho2, All.upd_ne ho1]
        refine hc.rest o fun ⟨x, c, d, hx, hoc⟩ => ho ⟨x, c, d, ?_, hoc⟩
        dsimp only
        rw [if_neg]
        · exact hx
        · rintro rfl; rw [hfk] at hx; cases hx
    · intro e he
      obtain ⟨x, h6, h7⟩ := hl e (List.mem_cons_of_mem _ he)
      refine ⟨x, h6, ?_⟩
      rw [if_neg]
      · exact h7
      · rintro rfl
        rw [hk] at h6; injection h6 with h6
        exact hnd.1 (h6 ▸ he)
    · rintro _ w' V' ⟨f', h6, h7, h8⟩
      refine ⟨f', h6, h7, fun x => ?_⟩
      rw [h8 x]
      by_cases hx : x = k
      · subst hx
        simp [hk]
      · rw [if_neg hx]
        constructor
        · rintro (h9 | ⟨e, h9, h10⟩)
          · exact Or.inl h9
          · exact Or.inr ⟨e, List.mem_cons_of_mem _ h9, h10⟩
        · rintro (h9 | ⟨e, h9, h10⟩)
          · exact Or.inl h9
          · rcases List.mem_cons.1 h9 with rfl | h9
            · exact absurd (h1.apart.keys h10 hk).2 hx
            · exact Or.inr ⟨e, h9, h10⟩

theorem copy_ok (hr : Stands I s V) (h : TabsOk p c V w m) {t u : Nat} : CallOk I c w s V m (.copy t u) := by
  refine TGoes.bind (Q' := fun _ w' V' => ∃ m', TablePost p j V m (.copy t u) (.ret .unit) V' m' ∧ TabsOk p c V' w' m') ?_
    fun a w' s' V' hr h => TGoes.pure hr h
  unfold copyD
  by_cases hij : t = u
  · rw [if_pos hij]
    exact TGoes.pure hr ⟨m, by unfold TablePost; dsimp only; rw [if_pos hij]; exact ⟨rfl, rfl, rfl⟩, h⟩
  rw [if_neg hij]
  refine TGoes.ask hr ?_ fun hx => ⟨m, by unfold TablePost; dsimp only; rw [if_neg hij]; exact Or.inr ⟨rfl, Or.inl ⟨rfl, rfl⟩⟩,
    h.frame rfl fun i k a b hm => ⟨rfl, h.value hm⟩, hx⟩
  have h0 : TabsOk p c V { w with asked := w.asked + 1 } m := h.frame rfl fun i k a b hm => ⟨rfl, h.value hm⟩
  refine TGoes.bind (goes_clear hI hr h0 t) fun _ w1 s1 V1 hr1 e => ?_
  obtain ⟨hg, rfl⟩ := e
  refine TGoes.get (TGoes.set ?_)
  have hw : (setFn w.tab t (w.tab t).clear) u = w.tab u := setFn_ne _ _ fun e => hij e.symm
  dsimp only
  rw [hw]
  have h1 : TabsOk p c V1 { w with tab := setFn (setFn w.tab t (w.tab t).clear) t (UMap.empty (w.tab u).n), asked := w.asked + 1 }
      (m.put t fun _ => none) := by
    have := TabsOk.gone (r := w.asked + 1) h hg (TabOk.empty (r := (w.tab u).n))
    refine ⟨fun l => ?_, this.apart⟩
    have := this.tab l
    dsimp only at this ⊢
    by_cases hl : l = t
    · subst hl; rw [setFn_same] at this ⊢; exact this
    · rw [setFn_ne _ _ hl] at this ⊢; rw [setFn_ne _ _ hl]; exact this
  have hput : ∀ g f, (m.put t g).put t f = m.put t f := fun g f => by
    funext x; unfold Maps.put; split <;> rfl
  have hj : (m.put t fun _ => none) u = m u := Maps.put_ne fun e => hij e.symm
  have hloop := goes_copyNodes hI hij h1 (w.tab u).entries (f := fun _ => none) hr1 (by rw [hput]; exact h1)
    ⟨nofun, fun _ _ => rfl⟩ (entries_nodup (h.tab u)) fun e he => ⟨_, by rw [hj]; exact (h.tab u).bound he, rfl⟩
  refine TGoes.onThrow (TGoes.mono hloop (fun _ w2 V2 hq => ?_) fun _ _ _ h => h) fun e w2 s2 V2 hr2 hq => ?_
  · obtain ⟨f', h2, h3, h4⟩ := hq
    rw [hput] at h2
    refine ⟨m.put t f', ?_, h2⟩
    unfold TablePost; dsimp only; rw [if_neg hij]
    refine Or.inl ⟨V1, f', rfl, hg, rfl, fun k => ?_, fun k a b a' b' hk hk' => ?_, h3.rest⟩
    · rw [Bool.eq_iff_iff, h4 k, hj]
      simp only [Option.isSome_none, Bool.false_eq_true, false_or]
      rw [Option.isSome_iff_exists]
      constructor
      · rintro ⟨e, _, he⟩; exact ⟨e, he⟩
      · rintro ⟨e, he⟩; exact ⟨e, (((h.tab u).rep k e).1 he).1, he⟩
    · obtain ⟨h5, h6, x, y, h7, h8⟩ := h3.made k a' b' hk'
      rw [hj, hk] at h7
      injection h7 with h7; injection h7 with h7 h9
      subst h7; subst h9
      refine ⟨h5, h6, ?_, ?_⟩
      · exact h2.key (t := t) (k := k) (b := b') (by rw [Maps.put_self]; exact hk')
      · rw [h8]
        refine (hg _).2 fun ⟨x, c, d, hx, hb⟩ => ?_
        rcases hb with e | e
        · exact h.apart.keyValue hx hk e.symm
        · injection e with _ e; subst e; exact hij (h.apart.values hx hk).1
  · obtain ⟨rfl, hx, f', h2, h3⟩ := hq
    refine TGoes.mono (goes_clear hI hr2 h2 t (X := fun _ _ _ => False)) (fun _ w3 V3 h4 => ?_) fun _ _ _ h => h
    obtain ⟨h4, rfl⟩ := h4
    rw [Maps.put_self] at h4
    have he : V3 = V1 := by
      funext x
      by_cases ho : Owns j f' x
      · rw [(h4 x).1 ho]
        obtain ⟨k, a, b, h5, h6⟩ := ho
        obtain ⟨h7, h8, _⟩ := h3.made k a b h5
        rcases h6 with rfl | rfl
        · exact h7.symm
        · exact h8.symm
      · rw [(h4 x).2 ho, h3.rest x ho]
    subst he
    refine ⟨m.put t fun _ => none, ?_, ?_, hx⟩
    · unfold TablePost; dsimp only; rw [if_neg hij]
      exact Or.inr ⟨rfl, Or.inr ⟨hg, rfl⟩⟩
    · have := TabsOk.gone (r := w2.asked) h2 (t := t) (by rw [Maps.put_self]; exact h4) (h2.tab t).clear
      rw [hput, hput] at this
      exact this

/-- Every call. -/
theorem call_ok (hr : Stands I s V) (h : TabsOk p c V w m) {call : TCall} (hc : TablePre j V m call) : CallOk I c w s V m call := by
  cases call with
  | insert i rk rv k v => exact insert_ok hI hr h hc
  | remove i k => exact remove_ok hI hr h hc
  | contains i k => exact contains_ok hI hr h hc
  | getValue i k => exact getValue_ok hI hr h hc
  | find i k => exact find_ok hI hr h hc
  | index i rk k => exact index_ok hI hr h hc
  | size i => exact size_ok hr h
  | isEmpty i => exact isEmpty_ok hr h
  | iterate i => exact iterate_ok hr h
  | clear i => exact clear_ok hI hr h
  | copy i j => exact copy_ok hI hr h
  | move i j => exact move_ok hI hr h
  | swap i j => exact swap_ok hr h

end

/-! ## Programs -/

theorem serves_of (hI : Acts p I) (hS : ∀ w E, I w E → Sees p w E) : ∀ (r : Nat) {d : Desk p n} {E : Envs n} {m : Maps i},
    I d.mem E → TabsOk p c E.all d.tabs m → Serves p c r d E m
  | 0, _, _, _, _, _ => trivial
  | r + 1, d, E, m, hr, h => by
    refine ⟨hS _ _ hr, h.apart, fun t k a b hk => ⟨h.known hk, h.key hk, h.value hk⟩, fun call hpre => ?_, fun call hpre => ?_⟩
    · obtain ⟨out, s', E', h1, h2, h3⟩ := hI _ _ hr call hpre
      exact ⟨out, s', E', h1, h2, fun hk => serves_of hI hS r h3
        (h.frame rfl fun t k a b hm => ⟨hk.1 _ ⟨t, k, a, b, hm, rfl⟩, hk.2 _ ⟨t, k, a, b, hm, rfl⟩⟩)⟩
    · have := call_ok hI (s := d.mem) ⟨E, hr, rfl⟩ h hpre
      unfold CallOk TGoes Ends at this
      cases hx : callD p c call d with
      | ok x d' =>
        rw [show callD p c call ⟨d.tabs, d.mem⟩ = _ from hx] at this
        obtain ⟨_, ⟨m', h1, h2⟩, E', h3, rfl⟩ := this
        exact ⟨_, _, E', m', rfl, h1, nofun, serves_of hI hS r h3 h2⟩
      | throw x d' =>
        rw [show callD p c call ⟨d.tabs, d.mem⟩ = _ from hx] at this
        obtain ⟨_, ⟨m', h1, h2, h4⟩, E', h3, rfl⟩ := this
        exact ⟨_, _, E', m', rfl, h1, fun _ _ => h4, serves_of hI hS r h3 h2⟩
      | ub =>
        rw [show callD p c call ⟨d.tabs, d.mem⟩ = _ from hx] at this
        exact this.elim

/-- Programs of any length. -/
theorem c103_tables_partial (hp : p.Good) (c : Shelf i j n) (r : Nat) : Serves p c r {} (Envs.none n) fun _ _ => none := by
  obtain ⟨I, h1, h2, h3⟩ := c102_for_ever hp n
  exact serves_of h3 h2 r h1 ⟨fun _ => TabOk.empty, nofun, nofun, nofun⟩

/-- Calls on objects of any depth, also on elements of values, that neither write a key nor destroy a value keep the entries. -/
theorem c103_elsewhere {sh : Sh n} {E E' : Envs n} {call : Call n} {out : End n}
    (hk : ∀ t k a b, m t k = some (a, b) → E.all ⟨i, a⟩ ≠ .dead ∧ E.all ⟨j, b⟩ ≠ .dead) (hpre : Pre p sh E call) (h : Post p sh E call out E')
    (h1 : ∀ x, KeyIn m x → ¬ WritesTo call x) (h2 : ∀ x, ValueIn j m x → ¬ Destroys call x) : EntriesKept j m E.all E'.all := by
  refine ⟨fun x hx => ?_, fun x hx => ?_⟩
  · obtain ⟨t, k, a, b, hm, rfl⟩ := id hx
    exact post_elsewhere (h1 _ hx) h (hk t k a b hm).1
  · obtain ⟨t, k, a, b, hm, rfl⟩ := id hx
    exact post_survives hpre (h2 _ hx) h (hk t k a b hm).2

/-! ## Examples -/

/-- `HashTable<Array<String>, String>` in a program with objects of depth 0 and 1; the array of buckets grows with every entry. -/
def byArray : Shelf 1 0 1 := ⟨.here, .up .here, fun _ => true, fun n _ => some (n + 2)⟩
/-- The same with memory for a node, but not for more buckets. -/
def byArrayTight : Shelf 1 0 1 := { byArray with fits := fun r => decide (r = 0) }
/-- `HashTable<String, Array<Array<String>>>`. -/
def byString : Shelf 0 2 2 := ⟨.up (.up .here), .here, fun _ => true, fun n _ => some (n + 2)⟩

example (r : Nat) := c103_tables_partial params_good byArrayTight r
example (r : Nat) := c103_tables_partial params_good byString r

/-- With String 0 = "a" and Array 0 = {"a"}, `t.insert(std::move(array), std::move(string))` is within contract. -/
example : TablePre (i := 1) 0 (Envs.all (n := 1) ((Env.empty.upd 0 (.val [97]) : Env UInt8), Env.empty.upd 0 (arr [str [97]]))) (fun _ _ => none)
    (.insert 0 true true 0 0) :=
  ⟨⟨_, rfl, fun x hx => by cases List.mem_singleton.mp hx; exact ⟨_, rfl⟩⟩, (fun h => nomatch h), (fun _ ⟨_, _, _, _, h, _⟩ => nomatch h),
    (fun _ ⟨_, _, _, _, h, _⟩ => nomatch h)⟩

/-- Calls on objects and on tables. -/
inductive Step (n : Nat) where
  | obj (call : Call n)
  | tab (call : TCall)

/-- What calls on tables return, as long as no call throws, and the state the calls leave. -/
def goOn (p : Params) {i j n : Nat} (c : Shelf i j n) : List (Step n) → Desk p n → List TOut × Desk p n
  | [], d => ([], d)
  | .obj call :: l, d => match result (run p call d.mem) with
    | some (.ret _, s) => goOn p c l { d with mem := s }
    | _ => ([], d)
  | .tab call :: l, d => match tableResult (callD p c call d) with
    | some (.ret x, d') => let r := goOn p c l d'; (x :: r.1, r.2)
    | _ => ([], d)

deriving instance DecidableEq for TOut

/-- String 0 = "a"; Array 0 = {"a"} (its element is String 1). -/
def oneArray : List (Step 1) := [.obj (.inner (.str (.strCtor [97]))), .obj (.arr .ctor), .obj (.append 0 0)]

/-- `t.insert({"a"}, "a"); t[{}]; t.insert({"a"}, "a"); u = t;` lookup in both tables; then removal from `t`, which `u` does not notice. -/
def arrayKeys : List (Step 1) := oneArray ++
  [.tab (.insert 0 false false 0 0), .obj (.arr .ctor), .tab (.index 0 true 2), .tab (.insert 0 false false 0 0), .tab (.copy 1 0),
    .tab (.find 1 0), .tab (.find 0 0), .tab (.remove 0 0), .tab (.size 0), .tab (.size 1), .tab (.contains 0 0), .tab (.contains 1 0)]

example : (goOn params byArray arrayKeys {}).1 = [.bool true, .obj 4, .bool false, .unit, .entry (some (4, 5)), .entry (some (1, 3)), .bool true,
    .nat 1, .nat 2, .bool false, .bool true] := by decide +kernel

/-- The program with String 0 and Array 0. -/
def deskOne : Desk params 1 := (goOn params byArrayTight oneArray {}).2

/-- The state in which bad_alloc leaves a program. -/
def thrown : Bdlib.Deep.Res (Desk params 1) TOut → Option (Desk params 1)
  | .throw .badAlloc d => some d
  | _ => none

/-- Refutation of "a call that throws leaves its arguments alone": memory for the node is there, for the buckets it is not.
The entry is not inserted, and the key, an array passed as an rvalue, holds nothing any more, not even an empty array: reading it is undefined. -/
theorem c103_refuted_lost_key : ∃ d', thrown (callD params byArrayTight (.insert 0 true false 0 0) deskOne) = some d' ∧
    (d'.tabs.tab 0).entries = [] ∧ (World.arrs deskOne.mem).view 0 = some [2] ∧ (World.arrs d'.mem).view 0 = none := by
  have h : (thrown (callD params byArrayTight (.insert 0 true false 0 0) deskOne)).map
    (fun d => ((d.tabs.tab 0).entries, (World.arrs d.mem).view 0)) = some ([], none) := by decide +kernel
  obtain ⟨d, h1, h2⟩ := Option.map_eq_some_iff.mp h
  injection h2 with h2 h3
  exact ⟨d, h1, h2, by decide +kernel, h3⟩

end Bdlib.Deep
