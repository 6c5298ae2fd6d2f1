import Verif.Prog.TableLogic
import Verif.Nest.Play
import Verif.Props.C71

/-!
# C88: tables of Strings on the memory machine
-/

namespace Bdlib.Rca
open Bdlib Bdlib.Spec Bdlib.Str Bdlib.Hash Bdlib.Nest

variable {cfg : Cfg UInt8} {lib : Lib} {s : St UInt8} {env env' : Env UInt8} {w w' : Tabs} {m : Tables}

theorem Tables.add_self {i : Nat} {k : Text} {p : Nat × Nat} : (m.add i k p) i = fun x => if x = k then some p else m i x := by
  simp [Tables.add, Tables.put]

theorem Tables.put_ne {i j : Nat} {f : Text → Option (Nat × Nat)} (h : j ≠ i) : (m.put i f) j = m j := by simp [Tables.put, h]
theorem Tables.put_self {i : Nat} {f : Text → Option (Nat × Nat)} : (m.put i f) i = f := by simp [Tables.put]

theorem upd_live {o x : Nat} {y : Slot UInt8} (hy : y ≠ .dead) (h : env.Live x) : (env.upd o y).Live x := by
  unfold Env.Live Env.upd
  split
  · exact hy
  · exact h

theorem taken_live {r : Bool} {o x : Nat} (h : env.Live x) : (taken cfg env r o).Live x := by
  unfold taken
  split
  · exact upd_live (movedSlot_live cfg) h
  · exact h

theorem taken_ne {r : Bool} {o x : Nat} (h : r = true → x ≠ o) : taken cfg env r o x = env x := by
  unfold taken
  split
  · rename_i hr; exact Env.upd_ne (h hr)
  · rfl

theorem TabsOk.key (h : TabsOk cfg lib env w m) {i : Nat} {k : Text} {a b : Nat} (hk : m i k = some (a, b)) : env a = .val k := (h.tab i).key hk
theorem TabsOk.value (h : TabsOk cfg lib env w m) {i : Nat} {k : Text} {a b : Nat} (hk : m i k = some (a, b)) : env.Live b := (h.tab i).value hk

theorem TabsOk.frame (h : TabsOk cfg lib env w m) (hw : w'.tab = w.tab)
    (hf : ∀ i k a b, m i k = some (a, b) → env' a = env a ∧ env'.Live b) : TabsOk cfg lib env' w' m :=
  ⟨fun i => by rw [hw]; exact (h.tab i).frame (hf i), h.apart⟩

/-- New Strings are not those of an entry. -/
theorem TabsOk.fresh (h : TabsOk cfg lib env w m) {o : Nat} (ho : env o = .dead) {i : Nat} {k : Text} {a b : Nat} (hk : m i k = some (a, b)) :
    a ≠ o ∧ b ≠ o :=
  ⟨fun e => by rw [← e, h.key hk] at ho; exact (nomatch ho), fun e => h.value hk (e ▸ ho)⟩

theorem apart_add (h : Apart m) {i : Nat} {k : Text} {a b : Nat} (hab : a ≠ b)
    (hn : ∀ j l x y, m j l = some (x, y) → x ≠ a ∧ y ≠ a ∧ x ≠ b ∧ y ≠ b) : Apart (m.add i k (a, b)) := by
  have hc : ∀ j l x y, (m.add i k (a, b)) j l = some (x, y) → (j = i ∧ l = k ∧ x = a ∧ y = b) ∨ m j l = some (x, y) := by
    intro j l x y hjl
    unfold Tables.add Tables.put at hjl
    by_cases hj : j = i
    · subst hj
      rw [if_pos rfl] at hjl
      by_cases hl : l = k
      · rw [if_pos hl] at hjl
        injection hjl with e; injection e with e1 e2
        exact Or.inl ⟨rfl, hl, e1.symm, e2.symm⟩
      · rw [if_neg hl] at hjl; exact Or.inr hjl
    · rw [if_neg hj] at hjl; exact Or.inr hjl
  refine ⟨fun {i1 j1 k1 l1 a1 b1 c1 d1} h1 h2 => ?_, fun {i1 j1 k1 l1 a1 b1 d1} h1 h2 => ?_, fun {i1 j1 k1 l1 a1 b1 c1} h1 h2 => ?_⟩
  · rcases hc _ _ _ _ h1 with ⟨_, _, h3, h4⟩ | h3 <;> rcases hc _ _ _ _ h2 with ⟨_, _, h5, h6⟩ | h5
    · rw [h3, h6]; exact hab
    · rw [h3]; exact fun e => (hn _ _ _ _ h5).2.1 e.symm
    · rw [h6]; exact (hn _ _ _ _ h3).2.2.1
    · exact h.keyValue h3 h5
  · rcases hc _ _ _ _ h1 with ⟨h7, h8, h3, h4⟩ | h3 <;> rcases hc _ _ _ _ h2 with ⟨h9, h10, h5, h6⟩ | h5
    · exact ⟨h7.trans h9.symm, h8.trans h10.symm⟩
    · exact absurd h3 (hn _ _ _ _ h5).1
    · exact absurd h5 (hn _ _ _ _ h3).1
    · exact h.keys h3 h5
  · rcases hc _ _ _ _ h1 with ⟨h7, h8, h3, h4⟩ | h3 <;> rcases hc _ _ _ _ h2 with ⟨h9, h10, h5, h6⟩ | h5
    · exact ⟨h7.trans h9.symm, h8.trans h10.symm⟩
    · exact absurd h4 (hn _ _ _ _ h5).2.2.2
    · exact absurd h6 (hn _ _ _ _ h3).2.2.2
    · exact h.values h3 h5

/-- Fewer entries. -/
theorem apart_less {m' : Tables} (h : Apart m) (hs : ∀ i k p, m' i k = some p → m i k = some p) : Apart m' :=
  ⟨fun h1 h2 => h.keyValue (hs _ _ _ h1) (hs _ _ _ h2), fun h1 h2 => h.keys (hs _ _ _ h1) (hs _ _ _ h2),
    fun h1 h2 => h.values (hs _ _ _ h1) (hs _ _ _ h2)⟩

theorem TabsOk.add (h : TabsOk cfg lib env w m) {i : Nat} {k : Text} {a b : Nat} {t : UMap Nat Nat} {n : Nat} (hab : a ≠ b)
    (hn : ∀ j l x y, m j l = some (x, y) → x ≠ a ∧ y ≠ a ∧ x ≠ b ∧ y ≠ b)
    (ht : TabOk cfg lib env t fun x => if x = k then some (a, b) else m i x) :
    TabsOk cfg lib env { w with tab := setFn w.tab i t, asked := n } (m.add i k (a, b)) := by
  refine ⟨fun j => ?_, apart_add h.apart hab hn⟩
  by_cases hj : j = i
  · subst hj
    rw [Tables.add_self]
    show TabOk cfg lib env (setFn w.tab j t j) _
    rw [setFn_same]
    exact ht
  · show TabOk cfg lib env (setFn w.tab i t j) _
    rw [setFn_ne _ _ hj]
    show TabOk cfg lib env _ ((m.put i _) j)
    rw [Tables.put_ne hj]
    exact h.tab j

/-! ## The functions -/

section
variable (hv : cfg.Valid) (hp : cfg.Physical) (hL : lib.L.Ok)
include hv hp hL

theorem runs_containsT (hr : Reach cfg s env) (h : TabsOk cfg lib env w m) {i k : Nat} (hk : env.Has k) {E : Exc → Tabs → Env UInt8 → Prop} :
    TRuns cfg (containsT cfg lib i k) w s (fun b w' env' => b = (m i (env.get k)).isSome ∧ w' = w ∧ env' = env) E := by
  show TRuns cfg (if isEmpty (w.tab i) then _ else _) w s _ E
  by_cases he : isEmpty (w.tab i) = true
  · rw [if_pos he]
    refine TRuns.pure hr ⟨?_, rfl, rfl⟩
    cases hf : m i (env.get k) with
    | none => rfl
    | some p =>
      have hm := ((h.tab i).rep _ p).1 hf
      have hc := (h.tab i).wf.count
      unfold isEmpty at he
      rw [of_decide_eq_true he] at hc
      rw [List.length_eq_zero_iff.1 hc.symm] at hm
      cases hm.1
  · rw [if_neg he]
    refine TRuns.str (runs_lookP hv hp hL hr (h.tab i) hk) fun r s1 env1 hr1 e => ?_
    obtain ⟨rfl, rfl⟩ := e
    exact TRuns.pure hr1 ⟨rfl, rfl, rfl⟩

theorem runs_indexT (hr : Reach cfg s env) (h : TabsOk cfg lib env w m) {i k : Nat} {rk : Bool} (hk : env.Has k)
    (hn : rk = true → ¬ IsKey m k) :
    TRuns cfg (indexT cfg lib i rk k) w s
      (fun b w' env' => (∃ a, m i (env.get k) = some (a, b) ∧ w' = w ∧ env' = env) ∨
        (m i (env.get k) = none ∧ ∃ a m', NewEntry cfg env m i rk k a b env' m' ∧ TabsOk cfg lib env' w' m'))
      (fun e w' env' => m i (env.get k) = none ∧ NoEntry cfg env m rk k (.exc e) env' m ∧ TabsOk cfg lib env' w' m ∧ ∃ n, lib.fits n = false) := by
  obtain ⟨v, hk'⟩ := id hk
  unfold indexT
  show TRuns cfg (TM.lift (hash cfg k) >>= _) w s _ _
  refine TRuns.str (runs_hashP (lib := lib) hv hp hr hk) fun hc s1 env1 hr1 e => ?_
  obtain ⟨e, e2⟩ := e
  replace e2 := e2.symm
  subst e2
  rw [e]
  refine TRuns.str (runs_scanP hv hp hL hk' _ hr1 fun p hp => (h.tab i).wf.good _ p hp) fun r s2 env2 hr2 e => ?_
  obtain ⟨e1, e2⟩ := e
  replace e2 := e2.symm
  subst e2
  have hf : r = m i (env.get k) := e1.trans ((h.tab i).find hk)
  cases r with
  | some p => exact TRuns.pure hr2 (Or.inl ⟨p.1, hf.symm, rfl, rfl⟩)
  | none =>
    dsimp only
    refine TRuns.alloc hr2 ?_ fun hx => ⟨hf.symm, ⟨rfl, rfl, Or.inl rfl⟩, h.frame rfl fun i k a b hm => ⟨rfl, h.value hm⟩, hx⟩
    -- the key of the node
    have hkey : Runs cfg (if rk then moveCtor cfg k else copyCtor k) s2
        (fun a env' => env a = .dead ∧ env' = (taken cfg env rk k).upd a (.val v)) fun _ _ => False := by
      cases rk with
      | true => exact runs_moveCtor hv hp hr2 hk'
      | false => exact runs_copyCtor hv hp hr2 hk'
    refine TRuns.str hkey fun a s3 env3 hr3 e => ?_
    obtain ⟨ha, rfl⟩ := e
    have hka : k ≠ a := dead_ne ha (live_val hk')
    refine TRuns.str (runs_ctor hv hp hr3) fun b s4 env4 hr4 e => ?_
    obtain ⟨hb, rfl⟩ := e
    have hab : a ≠ b := dead_ne hb (live_val Env.upd_self)
    have hb' : env b = .dead := by
      rw [Env.upd_ne (fun e => hab e.symm)] at hb
      cases hbe : env b with
      | dead => rfl
      | unspec => exact absurd hb (taken_live (x := b) (by unfold Env.Live; rw [hbe]; nofun))
      | val x => exact absurd hb (taken_live (x := b) (by unfold Env.Live; rw [hbe]; nofun))
    -- the tables with the new Strings
    have hfr : ∀ i l x y, m i l = some (x, y) → (((taken cfg env rk k).upd a (.val v)).upd b (.val [])) x = env x ∧
        (((taken cfg env rk k).upd a (.val v)).upd b (.val [])).Live y := fun i l x y hm => by
      refine ⟨?_, upd_live nofun (upd_live nofun (taken_live (h.value hm)))⟩
      rw [Env.upd_ne (h.fresh hb' hm).1, Env.upd_ne (h.fresh ha hm).1]
      exact taken_ne fun hrk e => hn hrk ⟨i, l, y, e ▸ hm⟩
    have hnew : ∀ j l x y, m j l = some (x, y) → x ≠ a ∧ y ≠ a ∧ x ≠ b ∧ y ≠ b := fun j l x y hm =>
      ⟨(h.fresh ha hm).1, (h.fresh ha hm).2, (h.fresh hb' hm).1, (h.fresh hb' hm).2⟩
    generalize hE : ((taken cfg env rk k).upd a (.val v)).upd b (.val []) = env2 at *
    have hva : env2 a = .val v := by rw [← hE, Env.upd_ne hab, Env.upd_self]
    have hvb : env2.Live b := by rw [← hE]; exact live_val Env.upd_self
    have hh : (ty cfg lib env).hash k = (ty cfg lib env2).hash a := by
      unfold ty; dsimp only; rw [get_val hk', get_val hva]
    have h2 : TabsOk cfg lib env2 w m := h.frame rfl hfr
    have hne : NewEntry cfg env m i rk k a b env2 (m.add i (env.get k) (a, b)) := ⟨ha, hb', hab, by rw [← hE, get_val hk'], rfl⟩
    have hv0 : env.get k = v := get_val hk'
    cases hg : lib.grow (w.tab i).count (w.tab i).n with
    | none =>
      refine TRuns.set (TRuns.pure hr4 (Or.inr ⟨hf.symm, a, _, hne, ?_⟩))
      refine h2.add hab hnew ?_
      rw [hh, hv0]
      exact (h2.tab i).push hva hvb (by rw [← hv0]; exact hf.symm)
    | some n =>
      refine TRuns.bind (Q' := fun _ w' env' => env' = env2 ∧ w'.tab = w.tab) (TRuns.onThrow
        (E' := fun e w' env' => e = .badAlloc ∧ env' = env2 ∧ w'.tab = w.tab ∧ ∃ n, lib.fits n = false) ?_ ?_) ?_
      · exact TRuns.allocs hr4 ⟨rfl, rfl⟩ fun hx => ⟨rfl, rfl, rfl, hx⟩
      · rintro e w5 s5 env5 hr5 ⟨rfl, rfl, hw5, hx⟩
        refine TRuns.lift (Q' := fun _ env' => env' = (env5.upd b .dead).upd a .dead) (Runs.bind (runs_destroy hv hp hr5 hvb)
          fun _ s6 env6 hr6 e => ?_) fun _ env' e => ?_
        · subst e
          exact runs_destroy hv hp hr6 (by unfold Env.Live; rw [Env.upd_ne hab, hva]; nofun)
        · have hback : env' = taken cfg env rk k := by
            rw [e, ← hE, Env.upd_upd]
            rw [Env.upd_id (show (((taken cfg env rk k).upd a (.val v)) b = .dead) from ?_)]
            · rw [Env.upd_upd, Env.upd_id]
              rw [taken_ne (fun _ => hka.symm), ha]
            · rw [Env.upd_ne hab.symm, taken_ne (fun _ e => ?_), hb']
              rw [e, hk'] at hb'; cases hb'
          refine ⟨hf.symm, ⟨rfl, rfl, ?_⟩, h.frame hw5 fun j l x y hm => ?_, hx⟩
          · rw [hback]
            unfold taken
            cases rk with
            | true => exact Or.inr ⟨rfl, rfl⟩
            | false => exact Or.inl rfl
          · rw [hback]
            exact ⟨taken_ne fun hrk e => hn hrk ⟨j, l, y, e ▸ hm⟩, taken_live (h.value hm)⟩
      · rintro _ w5 s5 env5 hr5 ⟨rfl, hw5⟩
        refine TRuns.str (runs_refillP (lib := lib) hv hp _ _ hr5 fun p hp => entries_ok (h2.tab i).wf hp) fun u s6 env6 hr6 e => ?_
        obtain ⟨rfl, rfl⟩ := e
        refine TRuns.set (TRuns.pure hr6 (Or.inr ⟨hf.symm, a, _, hne, ?_⟩))
        have h5 : TabsOk cfg lib env6 w5 m := h2.frame hw5 fun i k a b hm => ⟨rfl, h2.value hm⟩
        refine h5.add hab hnew ?_
        rw [hh, hv0]
        exact ((h2.tab i).rehash n).push hva hvb (by rw [← hv0]; exact hf.symm)

theorem runs_assign (hr : Reach cfg s env) {b v : Nat} {rv : Bool} (hb : env.Live b) (hv' : env.Live v) (hne : b ≠ v) {E : Exc → Env UInt8 → Prop} :
    Runs cfg (if rv then moveAssign cfg b v else copyAssign b v) s (fun _ env' => Assigned cfg rv b v env env') E := by
  cases rv with
  | true => exact runs_op hv hp hr (op := .moveAssign b v) rfl ⟨hb, hv'⟩ (fun _ _ h => by
      have := h.2; rw [if_neg hne] at this; exact this) (fun _ _ h => nomatch h.1)
  | false => exact runs_op hv hp hr (op := .copyAssign b v) rfl ⟨hb, hv'⟩ (fun _ _ h => h.2) (fun _ _ h => nomatch h.1)

/-- What a call has to do. -/
def CallOk (cfg : Cfg UInt8) (lib : Lib) (w : Tabs) (s : St UInt8) (env : Env UInt8) (m : Tables) (c : TCall) : Prop :=
  TRuns cfg (callT cfg lib c) w s (fun x w' env' => ∃ m', TPost cfg env m c (.ret x) env' m' ∧ TabsOk cfg lib env' w' m')
    (fun e w' env' => ∃ m', TPost cfg env m c (.exc e) env' m' ∧ TabsOk cfg lib env' w' m' ∧ ∃ n, lib.fits n = false)

theorem insert_ok (hr : Reach cfg s env) (h : TabsOk cfg lib env w m) {i k v : Nat} {rk rv : Bool} (hpre : TPre env m (.insert i rk rv k v)) :
    CallOk cfg lib w s env m (.insert i rk rv k v) := by
  obtain ⟨hk, hlv, hnk, hnv⟩ := hpre
  refine TRuns.bind (Q' := fun x w' env' => ∃ m', TPost cfg env m (.insert i rk rv k v) (.ret (.bool x)) env' m' ∧ TabsOk cfg lib env' w' m') ?_
    fun a w' s' env' hr h => TRuns.pure hr h
  unfold insertT
  refine TRuns.bind (runs_containsT hv hp hL hr h hk) fun x w1 s1 env1 hr1 e => ?_
  obtain ⟨rfl, rfl, e⟩ := e
  replace e := e.symm
  subst e
  cases hf : m i (env.get k) with
  | some p =>
    refine TRuns.pure hr1 ⟨m, ?_, h⟩
    unfold TPost; dsimp only; rw [hf]
    exact ⟨rfl, rfl, rfl⟩
  | none =>
    refine TRuns.bind (Q' := fun b w' env' => ∃ a m', NewEntry cfg env m i rk k a b env' m' ∧ TabsOk cfg lib env' w' m')
      (TRuns.mono (runs_indexT hv hp hL hr1 h (i := i) hk hnk) (fun b w2 env2 hq => ?_) fun e w2 env2 hq => ?_) fun b w2 s2 env2 hr2 hq => ?_
    · rcases hq with ⟨a, hq, _⟩ | hq
      · rw [hf] at hq; cases hq
      · exact hq.2
    · obtain ⟨h1, h2, h3, h4⟩ := hq
      refine ⟨m, ?_, h3, h4⟩
      unfold TPost; dsimp only; rw [hf]
      exact Or.inr h2
    · obtain ⟨a, m', hne, hok⟩ := hq
      obtain ⟨ha, hb, hab, he2, hm'⟩ := id hne
      have hbv : b ≠ v := (dead_ne hb hlv).symm
      have hav : a ≠ v := (dead_ne ha hlv).symm
      have hmb : m' i (env.get k) = some (a, b) := by rw [hm', Tables.add_self]; simp
      have hlb : env2.Live b := hok.value hmb
      have hlv2 : env2.Live v := by
        rw [he2]; exact upd_live nofun (upd_live nofun (taken_live hlv))
      refine TRuns.str (runs_assign hv hp hL hr2 hlb hlv2 hbv) fun _ s3 env3 hr3 e => ?_
      refine TRuns.pure hr3 ⟨m', ?_, hok.frame rfl fun j l x y hm => ?_⟩
      · unfold TPost; dsimp only; rw [hf]
        exact Or.inl ⟨a, b, env2, hne, e, rfl⟩
      · unfold Assigned at e
        rw [e]
        refine ⟨?_, upd_live hlv2 (taken_live (hok.value hm))⟩
        rw [Env.upd_ne (hok.apart.keyValue hm hmb)]
        refine taken_ne fun hrv hxv => ?_
        rw [hm'] at hm
        unfold Tables.add Tables.put at hm
        split at hm
        · dsimp only at hm
          split at hm
          · injection hm with hm; injection hm with hm _
            exact hav (hm.trans hxv)
          · rename_i hj hl
            subst hj; exact hnv hrv ⟨_, _, _, hxv ▸ hm⟩
        · exact hnv hrv ⟨_, _, _, hxv ▸ hm⟩

theorem index_ok (hr : Reach cfg s env) (h : TabsOk cfg lib env w m) {i k : Nat} {rk : Bool} (hpre : TPre env m (.index i rk k)) :
    CallOk cfg lib w s env m (.index i rk k) := by
  obtain ⟨hk, hnk⟩ := hpre
  refine TRuns.bind (Q' := fun x w' env' => ∃ m', TPost cfg env m (.index i rk k) (.ret (.obj x)) env' m' ∧ TabsOk cfg lib env' w' m') ?_
    fun a w' s' env' hr h => TRuns.pure hr h
  refine TRuns.mono (runs_indexT hv hp hL hr h (i := i) hk hnk) (fun b w2 env2 hq => ?_) fun e w2 env2 hq => ?_
  · rcases hq with ⟨a, hq, rfl, rfl⟩ | ⟨hq, a, m', h1, h2⟩
    · exact ⟨m, by unfold TPost; dsimp only; rw [hq]; exact ⟨rfl, rfl, rfl⟩, h⟩
    · exact ⟨m', by unfold TPost; dsimp only; rw [hq]; exact Or.inl ⟨a, b, h1, rfl⟩, h2⟩
  · obtain ⟨h1, h2, h3, h4⟩ := hq
    exact ⟨m, by unfold TPost; dsimp only; rw [h1]; exact Or.inr h2, h3, h4⟩

theorem contains_ok (hr : Reach cfg s env) (h : TabsOk cfg lib env w m) {i k : Nat} (hk : env.Has k) :
    CallOk cfg lib w s env m (.contains i k) := by
  refine TRuns.bind (runs_containsT hv hp hL hr h hk) fun x w1 s1 env1 hr1 e => ?_
  obtain ⟨rfl, rfl, rfl⟩ := e
  exact TRuns.pure hr1 ⟨m, ⟨rfl, rfl, rfl⟩, h⟩

theorem find_ok (hr : Reach cfg s env) (h : TabsOk cfg lib env w m) {i k : Nat} (hk : env.Has k) :
    CallOk cfg lib w s env m (.find i k) := by
  show TRuns cfg (TM.lift (lookP cfg lib (w.tab i) k) >>= _) w s _ _
  refine TRuns.str (runs_lookP hv hp hL hr (h.tab i) hk) fun r s1 env1 hr1 e => ?_
  obtain ⟨rfl, rfl⟩ := e
  exact TRuns.pure hr1 ⟨m, ⟨rfl, rfl, rfl⟩, h⟩

theorem getValue_ok (hr : Reach cfg s env) (h : TabsOk cfg lib env w m) {i k : Nat} (hk : env.Has k) :
    CallOk cfg lib w s env m (.getValue i k) := by
  refine TRuns.bind (Q' := fun x w' env' => ∃ m', TPost cfg env m (.getValue i k) (.ret (.obj x)) env' m' ∧ TabsOk cfg lib env' w' m') ?_
    fun a w' s' env' hr h => TRuns.pure hr h
  show TRuns cfg (TM.lift (lookP cfg lib (w.tab i) k) >>= _) w s _ _
  refine TRuns.str (runs_lookP hv hp hL hr (h.tab i) hk) fun r s1 env1 hr1 e => ?_
  obtain ⟨rfl, e⟩ := e
  replace e := e.symm
  subst e
  have hfr : ∀ o x, env o = .dead → x ≠ Slot.dead → TabsOk cfg lib (env.upd o x) w m := fun o x ho hx =>
    h.frame rfl fun j l y z hm => ⟨Env.upd_ne (h.fresh ho hm).1, upd_live hx (h.value hm)⟩
  cases hf : m i (env.get k) with
  | none =>
    refine TRuns.lift (runs_ctor hv hp hr1) fun o env' e => ?_
    obtain ⟨ho, rfl⟩ := e
    exact ⟨m, ⟨o, ho, rfl, rfl, by rw [hf]⟩, hfr o _ ho nofun⟩
  | some p =>
    refine TRuns.lift (runs_copyAny hv hp hr1 ((h.tab i).value hf)) fun o env' e => ?_
    obtain ⟨ho, rfl⟩ := e
    exact ⟨m, ⟨o, ho, rfl, rfl, by rw [hf]⟩, hfr o _ ho ((h.tab i).value hf)⟩

theorem remove_ok (hr : Reach cfg s env) (h : TabsOk cfg lib env w m) {i k : Nat} (hk : env.Has k) :
    CallOk cfg lib w s env m (.remove i k) := by
  obtain ⟨v, hk'⟩ := id hk
  refine TRuns.bind (Q' := fun x w' env' => ∃ m', TPost cfg env m (.remove i k) (.ret (.bool x)) env' m' ∧ TabsOk cfg lib env' w' m') ?_
    fun a w' s' env' hr h => TRuns.pure hr h
  show TRuns cfg (if isEmpty (w.tab i) then _ else _) w s _ _
  by_cases he : isEmpty (w.tab i) = true
  · rw [if_pos he]
    refine TRuns.pure hr ⟨m, ?_, h⟩
    cases hf : m i (env.get k) with
    | none => unfold TPost; dsimp only; rw [hf]; exact ⟨rfl, rfl, rfl⟩
    | some p =>
      have hm := ((h.tab i).rep _ p).1 hf
      have hc := (h.tab i).wf.count
      unfold isEmpty at he
      rw [of_decide_eq_true he] at hc
      rw [List.length_eq_zero_iff.1 hc.symm] at hm
      cases hm.1
  rw [if_neg he]
  refine TRuns.str (runs_bucketP (lib := lib) hv hp hr hk (w.tab i)) fun j s1 env1 hr1 e => ?_
  obtain ⟨rfl, e⟩ := e
  replace e := e.symm
  subst e
  refine TRuns.str (runs_scanP hv hp hL hk' _ hr1 fun p hp => (h.tab i).wf.good _ p hp) fun r s2 env2 hr2 e => ?_
  obtain ⟨e1, e⟩ := e
  replace e := e.symm
  subst e
  have hf : r = m i (env.get k) := e1.trans ((h.tab i).find hk)
  cases r with
  | none => exact TRuns.pure hr2 ⟨m, by unfold TPost; dsimp only; rw [← hf]; exact ⟨rfl, rfl, rfl⟩, h⟩
  | some p =>
    obtain ⟨a, b⟩ := p
    have hf := hf.symm
    have hab : a ≠ b := h.apart.keyValue hf hf
    refine TRuns.set (TRuns.str (Q' := fun _ env' => env' = (env.upd b .dead).upd a .dead) ?_ fun _ s3 env3 hr3 e => ?_)
    · unfold dropP
      refine Runs.bind (runs_destroy hv hp hr2 (h.value hf)) fun _ s6 env6 hr6 e => ?_
      subst e
      exact runs_destroy hv hp hr6 (by unfold Env.Live; rw [Env.upd_ne hab, h.key hf]; nofun)
    · subst e
      refine TRuns.pure hr3 ⟨m.del i (env.get k), by unfold TPost; dsimp only; rw [hf]; exact ⟨rfl, rfl, rfl⟩, ?_⟩
      have hless : ∀ j l q, (m.del i (env.get k)) j l = some q → m j l = some q ∧ ¬ (j = i ∧ l = env.get k) := fun j l q hq => by
        unfold Tables.del Tables.put at hq
        split at hq
        · dsimp only at hq
          split at hq
          · cases hq
          · rename_i h1 h2; subst h1; exact ⟨hq, fun h3 => h2 h3.2⟩
        · rename_i h1; exact ⟨hq, fun h3 => h1 h3.1⟩
      have hmid : TabsOk cfg lib env { w with tab := setFn w.tab i (UMap.mk (w.tab i).n (setFn (w.tab i).bkt
          ((ty cfg lib env).hash k % (w.tab i).n) (((w.tab i).bkt ((ty cfg lib env).hash k % (w.tab i).n)).eraseP fun x => decide (x = (a, b))))
          ((w.tab i).count - 1)) } (m.del i (env.get k)) := by
        refine ⟨fun j => ?_, apart_less h.apart fun j l q hq => (hless j l q hq).1⟩
        by_cases hj : j = i
        · subst hj
          show TabOk cfg lib env (setFn w.tab j _ j) _
          rw [setFn_same]
          unfold Tables.del
          rw [Tables.put_self]
          exact (h.tab j).erase hk hf
        · show TabOk cfg lib env (setFn w.tab i _ j) _
          rw [setFn_ne _ _ hj]
          unfold Tables.del
          rw [Tables.put_ne hj]
          exact h.tab j
      refine hmid.frame rfl fun j l x y hq => ?_
      obtain ⟨h1, h2⟩ := hless _ _ _ hq
      refine ⟨?_, ?_⟩
      · rw [Env.upd_ne fun e => h2 (h.apart.keys (e ▸ h1) hf), Env.upd_ne (h.apart.keyValue h1 hf)]
      · unfold Env.Live
        rw [Env.upd_ne fun e => h.apart.keyValue hf h1 e.symm, Env.upd_ne fun e => h2 (h.apart.values (e ▸ h1) hf)]
        exact h.value h1

theorem size_ok (hr : Reach cfg s env) (h : TabsOk cfg lib env w m) {i : Nat} : CallOk cfg lib w s env m (.size i) := by
  refine TRuns.get (TRuns.pure hr ⟨m, ⟨(w.tab i).entries.map fun p => env.get p.1, ?_, fun k => ?_, ?_, rfl, rfl⟩, h⟩)
  · exact List.pairwise_map.2 ((entries_once (ty_laws ..) (h.tab i).wf).imp fun {a b} hab => by unfold ty at hab; exact of_decide_eq_false hab)
  · rw [List.mem_map]
    constructor
    · rintro ⟨p, hp, rfl⟩
      obtain ⟨k, h1, h2⟩ := (h.tab i).bound hp
      rw [get_val h2, h1]; rfl
    · intro hk
      obtain ⟨p, hp⟩ := Option.isSome_iff_exists.1 hk
      obtain ⟨h1, h2⟩ := ((h.tab i).rep k p).1 hp
      exact ⟨p, h1, get_val h2⟩
  · rw [List.length_map, ← (h.tab i).wf.count]; rfl

theorem isEmpty_ok (hr : Reach cfg s env) (h : TabsOk cfg lib env w m) {i : Nat} : CallOk cfg lib w s env m (.isEmpty i) := by
  refine TRuns.get (TRuns.pure hr ⟨m, ⟨_, rfl, ?_, rfl, rfl⟩, h⟩)
  unfold isEmpty
  rw [decide_eq_true_eq, (h.tab i).wf.count, List.length_eq_zero_iff]
  constructor
  · intro he k
    cases hk : m i k with
    | none => rfl
    | some p => have := (((h.tab i).rep k p).1 hk).1; rw [he] at this; cases this
  · intro hn
    cases he : (w.tab i).entries with
    | nil => rfl
    | cons p l =>
      obtain ⟨k, hk, _⟩ := (h.tab i).bound (p := p) (by rw [he]; exact List.mem_cons_self ..)
      rw [hn k] at hk; cases hk

omit hv hp hL in
theorem entries_nodup {t : UMap Nat Nat} {f : Text → Option (Nat × Nat)} (h : TabOk cfg lib env t f) : t.entries.Nodup :=
  (entries_once (ty_laws ..) h.wf).imp fun {a b} hab e => by
    rw [e] at hab; unfold ty at hab; simp at hab

theorem iterate_ok (hr : Reach cfg s env) (h : TabsOk cfg lib env w m) {i : Nat} : CallOk cfg lib w s env m (.iterate i) := by
  refine TRuns.get (TRuns.pure hr ⟨m, ⟨_, rfl, entries_nodup (h.tab i), fun p => ?_, rfl, rfl⟩, h⟩)
  constructor
  · intro hp; obtain ⟨k, hk, _⟩ := (h.tab i).bound hp; exact ⟨k, hk⟩
  · rintro ⟨k, hk⟩; exact (((h.tab i).rep k p).1 hk).1

/-! ## Whole tables -/

theorem runs_dropAllP : ∀ (l : List (Nat × Nat)) {s : St UInt8} {env : Env UInt8}, Reach cfg s env →
    (∀ p ∈ l, env.Live p.1 ∧ env.Live p.2 ∧ p.1 ≠ p.2) →
    (l.Pairwise fun p q => p.1 ≠ q.1 ∧ p.1 ≠ q.2 ∧ p.2 ≠ q.1 ∧ p.2 ≠ q.2) →
    Runs cfg (dropAllP cfg l) s (fun _ env' => ∀ o, ((∃ p ∈ l, o = p.1 ∨ o = p.2) → env' o = .dead) ∧
      ((¬ ∃ p ∈ l, o = p.1 ∨ o = p.2) → env' o = env o)) fun _ _ => False
  | [], s, env, hr, _, _ => Runs.pure hr fun o => ⟨fun ⟨p, h, _⟩ => (nomatch h), fun _ => rfl⟩
  | p :: l, s, env, hr, hl, hpw => by
    obtain ⟨h1, h2, h3⟩ := hl p (List.mem_cons_self ..)
    rw [List.pairwise_cons] at hpw
    unfold dropAllP
    refine Runs.bind (Q' := fun _ env' => env' = (env.upd p.2 .dead).upd p.1 .dead) ?_ fun _ s1 env1 hr1 e => ?_
    · unfold dropP
      refine Runs.bind (runs_destroy hv hp hr h2) fun _ s6 env6 hr6 e => ?_
      subst e
      exact runs_destroy hv hp hr6 (by unfold Env.Live; rw [Env.upd_ne h3]; exact h1)
    · subst e
      refine Runs.mono (runs_dropAllP l hr1 (fun q hq => ?_) hpw.2) (fun _ env' h o => ?_) fun _ _ h => h
      · obtain ⟨h4, h5, h6⟩ := hl q (List.mem_cons_of_mem _ hq)
        obtain ⟨h7, h8, h9, h10⟩ := hpw.1 q hq
        refine ⟨?_, ?_, h6⟩
        · unfold Env.Live; rw [Env.upd_ne h7.symm, Env.upd_ne h9.symm]; exact h4
        · unfold Env.Live; rw [Env.upd_ne h8.symm, Env.upd_ne h10.symm]; exact h5
      · obtain ⟨h4, h5⟩ := h o
        by_cases ho : ∃ q ∈ l, o = q.1 ∨ o = q.2
        · refine ⟨fun _ => h4 ho, fun hn => ?_⟩
          obtain ⟨q, hq, hqo⟩ := ho
          exact absurd ⟨q, List.mem_cons_of_mem _ hq, hqo⟩ hn
        · rw [h5 ho]
          constructor
          · rintro ⟨q, hq, hqo⟩
            rcases List.mem_cons.1 hq with rfl | hq
            · rcases hqo with rfl | rfl
              · exact Env.upd_self
              · rw [Env.upd_ne h3.symm, Env.upd_self]
            · exact absurd ⟨q, hq, hqo⟩ ho
          · intro hn
            rw [Env.upd_ne fun e => hn ⟨p, List.mem_cons_self .., Or.inl e⟩, Env.upd_ne fun e => hn ⟨p, List.mem_cons_self .., Or.inr e⟩]

omit hv hp hL in
theorem of_iff {t : UMap Nat Nat} {f : Text → Option (Nat × Nat)} (h : TabOk cfg lib env t f) {o : Nat} :
    Of f o ↔ ∃ p ∈ t.entries, o = p.1 ∨ o = p.2 := by
  constructor
  · rintro ⟨k, a, b, h1, h2⟩; exact ⟨(a, b), ((h.rep k _).1 h1).1, h2⟩
  · rintro ⟨p, hp, ho⟩; obtain ⟨k, hk, _⟩ := h.bound hp; exact ⟨k, p.1, p.2, hk, ho⟩

omit hv hp hL in
/-- The other tables do not notice that one is gone. -/
theorem TabsOk.gone (h : TabsOk cfg lib env w m) {i : Nat} (hg : Gone (m i) env env') {t : UMap Nat Nat} {n : Nat}
    (ht : TabOk cfg lib env' t fun _ => none) : TabsOk cfg lib env' { w with tab := setFn w.tab i t, asked := n } (m.put i fun _ => none) := by
  refine ⟨fun j => ?_, apart_less h.apart fun j l q hq => ?_⟩
  · by_cases hj : j = i
    · subst hj
      show TabOk cfg lib env' (setFn w.tab j _ j) _
      rw [setFn_same, Tables.put_self]; exact ht
    · show TabOk cfg lib env' (setFn w.tab i _ j) _
      rw [setFn_ne _ _ hj, Tables.put_ne hj]
      refine (h.tab j).frame fun k a b hk => ?_
      have h1 : ¬ Of (m i) a := fun ⟨l, c, d, h1, h2⟩ => by
        rcases h2 with rfl | rfl
        · exact hj (h.apart.keys hk h1).1
        · exact h.apart.keyValue hk h1 rfl
      have h2 : ¬ Of (m i) b := fun ⟨l, c, d, h1, h2⟩ => by
        rcases h2 with rfl | rfl
        · exact h.apart.keyValue h1 hk rfl
        · exact hj (h.apart.values hk h1).1
      refine ⟨(hg a).2 h1, ?_⟩
      unfold Env.Live
      rw [(hg b).2 h2]; exact h.value hk
  · unfold Tables.put at hq
    split at hq
    · cases hq
    · exact hq

theorem runs_clearT (hr : Reach cfg s env) (h : TabsOk cfg lib env w m) (i : Nat) {E : Exc → Tabs → Env UInt8 → Prop} :
    TRuns cfg (clearT cfg i) w s (fun _ w' env' => Gone (m i) env env' ∧ w' = { w with tab := setFn w.tab i (w.tab i).clear }) E := by
  show TRuns cfg (TM.set i (w.tab i).clear >>= fun _ => TM.lift (dropAllP cfg (w.tab i).entries)) w s _ E
  refine TRuns.set (TRuns.lift (runs_dropAllP hv hp hL _ hr (fun p hp => ?_) ?_) fun _ env' e => ⟨fun o => ?_, rfl⟩)
  · obtain ⟨k, hk, h1⟩ := (h.tab i).bound hp
    exact ⟨live_val h1, h.value hk, h.apart.keyValue hk hk⟩
  · refine (entries_nodup (h.tab i)).imp_of_mem fun {p q} hp hq hpq => ?_
    obtain ⟨k, hk, h1⟩ := (h.tab i).bound hp
    obtain ⟨l, hl, h2⟩ := (h.tab i).bound hq
    have hkl : k ≠ l := fun e => by rw [e, hl] at hk; injection hk with hk; exact hpq hk.symm
    exact ⟨fun e => hkl (h.apart.keys (a := p.1) (b := p.2) (d := q.2) hk (by rw [e]; exact hl)).2, h.apart.keyValue hk hl,
      fun e => h.apart.keyValue hl hk e.symm, fun e => hkl (h.apart.values (a := p.1) (b := p.2) (c := q.1) hk (by rw [e]; exact hl)).2⟩
  · rw [of_iff (h.tab i)]
    exact e o

theorem clear_ok (hr : Reach cfg s env) (h : TabsOk cfg lib env w m) {i : Nat} : CallOk cfg lib w s env m (.clear i) := by
  refine TRuns.bind (runs_clearT hv hp hL hr h i) fun _ w1 s1 env1 hr1 e => ?_
  obtain ⟨hg, rfl⟩ := e
  exact TRuns.pure hr1 ⟨_, ⟨rfl, hg, rfl⟩, TabsOk.gone h hg (h.tab i).clear⟩

theorem move_ok (hr : Reach cfg s env) (h : TabsOk cfg lib env w m) {i j : Nat} : CallOk cfg lib w s env m (.move i j) := by
  refine TRuns.bind (Q' := fun _ w' env' => ∃ m', TPost cfg env m (.move i j) (.ret .unit) env' m' ∧ TabsOk cfg lib env' w' m') ?_
    fun a w' s' env' hr h => TRuns.pure hr h
  unfold moveT
  by_cases hij : i = j
  · rw [if_pos hij]
    exact TRuns.pure hr ⟨m, by unfold TPost; dsimp only; rw [if_pos hij]; exact ⟨rfl, rfl, rfl⟩, h⟩
  rw [if_neg hij]
  refine TRuns.bind (runs_clearT hv hp hL hr h i) fun _ w1 s1 env1 hr1 e => ?_
  obtain ⟨hg, rfl⟩ := e
  have h1 := TabsOk.gone (n := w.asked) h hg (h.tab i).clear
  refine TRuns.get (TRuns.set (TRuns.sets hr1 ⟨(m.put i (m j)).put j fun _ => none, ?_, fun l => ?_, ?_⟩))
  · unfold TPost; dsimp only; rw [if_neg hij]; exact ⟨rfl, hg, rfl⟩
  · by_cases hl : l = j
    · subst hl
      rw [Tables.put_self]
      show TabOk cfg lib env1 (setFn _ l _ l) _
      rw [setFn_same]; exact TabOk.empty
    · rw [Tables.put_ne hl]
      show TabOk cfg lib env1 (setFn _ j _ l) _
      rw [setFn_ne _ _ hl]
      dsimp only
      by_cases hli : l = i
      · subst hli
        rw [setFn_same, Tables.put_self]
        have := h1.tab j
        rw [Tables.put_ne (fun e => hij e.symm)] at this
        exact this
      · have := h1.tab l
        rw [Tables.put_ne hli] at this ⊢
        rw [setFn_ne _ _ hli]
        exact this
  · -- the entries of `j` are those of `i` now
    have hc : ∀ x l p, ((m.put i (m j)).put j fun _ => none) x l = some p → ∃ y, m y l = some p ∧ (x = i ∧ y = j ∨ x ≠ i ∧ x ≠ j ∧ y = x) := by
      intro x l p hx
      unfold Tables.put at hx
      split at hx
      · cases hx
      · rename_i h2
        split at hx
        · rename_i h3; exact ⟨j, hx, Or.inl ⟨h3, rfl⟩⟩
        · rename_i h3; exact ⟨x, hx, Or.inr ⟨h3, h2, rfl⟩⟩
    have hinj : ∀ {x x' y y'}, (x = i ∧ y = j ∨ x ≠ i ∧ x ≠ j ∧ y = x) → (x' = i ∧ y' = j ∨ x' ≠ i ∧ x' ≠ j ∧ y' = x') → y = y' → x = x' := by
      omega
    refine ⟨fun h2 h3 => ?_, fun h2 h3 => ?_, fun h2 h3 => ?_⟩ <;> obtain ⟨y, h4, h5⟩ := hc _ _ _ h2 <;> obtain ⟨z, h6, h7⟩ := hc _ _ _ h3
    · exact h.apart.keyValue h4 h6
    · exact ⟨hinj h5 h7 (h.apart.keys h4 h6).1, (h.apart.keys h4 h6).2⟩
    · exact ⟨hinj h5 h7 (h.apart.values h4 h6).1, (h.apart.values h4 h6).2⟩

theorem swap_ok (hr : Reach cfg s env) (h : TabsOk cfg lib env w m) {i j : Nat} : CallOk cfg lib w s env m (.swap i j) := by
  refine TRuns.bind (Q' := fun _ w' env' => ∃ m', TPost cfg env m (.swap i j) (.ret .unit) env' m' ∧ TabsOk cfg lib env' w' m') ?_
    fun a w' s' env' hr h => TRuns.pure hr h
  refine TRuns.get (TRuns.get (TRuns.set (TRuns.sets hr ⟨(m.put i (m j)).put j (m i), ⟨rfl, rfl, rfl⟩, fun l => ?_, ?_⟩)))
  · by_cases hl : l = j
    · subst hl
      rw [Tables.put_self]
      show TabOk cfg lib env (setFn _ l _ l) _
      rw [setFn_same]; exact h.tab i
    · rw [Tables.put_ne hl]
      show TabOk cfg lib env (setFn _ j _ l) _
      rw [setFn_ne _ _ hl]
      dsimp only
      by_cases hli : l = i
      · subst hli
        rw [setFn_same, Tables.put_self]
        exact h.tab j
      · rw [Tables.put_ne hli, setFn_ne _ _ hli]
        exact h.tab l
  · have hc : ∀ x l p, ((m.put i (m j)).put j (m i)) x l = some p → ∃ y, m y l = some p ∧ (x = j ∧ y = i ∨ x ≠ j ∧ x = i ∧ y = j ∨ x ≠ i ∧ x ≠ j ∧ y = x) := by
      intro x l p hx
      unfold Tables.put at hx
      split at hx
      · rename_i h2; exact ⟨i, hx, Or.inl ⟨h2, rfl⟩⟩
      · rename_i h2
        split at hx
        · rename_i h3; exact ⟨j, hx, Or.inr (Or.inl ⟨h2, h3, rfl⟩)⟩
        · rename_i h3; exact ⟨x, hx, Or.inr (Or.inr ⟨h3, h2, rfl⟩)⟩
    have hinj : ∀ {x x' y y'}, (x = j ∧ y = i ∨ x ≠ j ∧ x = i ∧ y = j ∨ x ≠ i ∧ x ≠ j ∧ y = x) →
        (x' = j ∧ y' = i ∨ x' ≠ j ∧ x' = i ∧ y' = j ∨ x' ≠ i ∧ x' ≠ j ∧ y' = x') → y = y' → x = x' := by
      omega
    refine ⟨fun h2 h3 => ?_, fun h2 h3 => ?_, fun h2 h3 => ?_⟩ <;> obtain ⟨y, h4, h5⟩ := hc _ _ _ h2 <;> obtain ⟨z, h6, h7⟩ := hc _ _ _ h3
    · exact h.apart.keyValue h4 h6
    · exact ⟨hinj h5 h7 (h.apart.keys h4 h6).1, (h.apart.keys h4 h6).2⟩
    · exact ⟨hinj h5 h7 (h.apart.values h4 h6).1, (h.apart.values h4 h6).2⟩

/-- What has been copied so far: table `i` has the entries `f`, which are copies of entries of `j`. -/
structure Copied (m1 : Tables) (j : Nat) (env1 : Env UInt8) (f : Text → Option (Nat × Nat)) (env : Env UInt8) : Prop where
  made : ∀ k a' b', f k = some (a', b') → env1 a' = .dead ∧ env1 b' = .dead ∧ ∃ a b, m1 j k = some (a, b) ∧ env b' = env1 b
  rest : ∀ o, ¬ Of f o → env o = env1 o

theorem runs_copyNodesT {m1 : Tables} {i j : Nat} {env1 : Env UInt8} {w1 : Tabs} (hij : i ≠ j) (h1 : TabsOk cfg lib env1 w1 m1) :
    ∀ (l : List (Nat × Nat)) {s : St UInt8} {env : Env UInt8} {w : Tabs} {f : Text → Option (Nat × Nat)}, Reach cfg s env →
      TabsOk cfg lib env w (m1.put i f) → Copied m1 j env1 f env → l.Nodup → (∀ p ∈ l, ∃ k, m1 j k = some p ∧ f k = none) →
      TRuns cfg (copyNodesT cfg lib i l) w s
        (fun _ w' env' => ∃ f', TabsOk cfg lib env' w' (m1.put i f') ∧ Copied m1 j env1 f' env' ∧
          ∀ k, (f' k).isSome ↔ ((f k).isSome ∨ ∃ p ∈ l, m1 j k = some p))
        (fun e w' env' => e = .badAlloc ∧ (∃ n, lib.fits n = false) ∧ ∃ f', TabsOk cfg lib env' w' (m1.put i f') ∧ Copied m1 j env1 f' env')
  | [], s, env, w, f, hr, h, hc, _, _ => TRuns.pure hr ⟨f, h, hc, fun k => ⟨Or.inl, fun hx => hx.elim id fun ⟨_, hx, _⟩ => nomatch hx⟩⟩
  | (a, b) :: l, s, env, w, f, hr, h, hc, hnd, hl => by
    obtain ⟨k, hk, hfk⟩ := hl (a, b) (List.mem_cons_self ..)
    rw [List.nodup_cons] at hnd
    have hk2 : (m1.put i f) j k = some (a, b) := by rw [Tables.put_ne hij.symm]; exact hk
    -- which Strings are there
    have hlive : ∀ o, Of f o → env.Live o := fun o ⟨x, c, d, hx, ho⟩ => by
      have hx' : (m1.put i f) i x = some (c, d) := by rw [Tables.put_self]; exact hx
      rcases ho with rfl | rfl
      · exact live_val (h.key hx')
      · exact h.value hx'
    have hnot : ∀ o, env1.Live o → ¬ Of f o := fun o ho ⟨x, c, d, hx, hoc⟩ => by
      obtain ⟨h3, h4, _⟩ := hc.made x c d hx
      rcases hoc with rfl | rfl
      · exact ho h3
      · exact ho h4
    have hdead : ∀ o, env o = .dead → env1 o = .dead := fun o ho => by
      rw [← hc.rest o fun hof => hlive o hof ho]; exact ho
    have hbv : env b = env1 b := hc.rest b (hnot b (h1.value hk))
    unfold copyNodesT
    refine TRuns.alloc hr ?_ fun hx => ⟨rfl, hx, f, h.frame rfl fun i k a b hm => ⟨rfl, h.value hm⟩, hc⟩
    refine TRuns.str (runs_copyCtor hv hp hr (h.key hk2)) fun a' s2 env2 hr2 e => ?_
    obtain ⟨ha, rfl⟩ := e
    have hba : b ≠ a' := (h.fresh ha hk2).2
    refine TRuns.str (runs_copyAny hv hp hr2 (r := b) (upd_live nofun (h.value hk2))) fun b' s3 env3 hr3 e => ?_
    obtain ⟨hb, rfl⟩ := e
    have hab : a' ≠ b' := dead_ne hb (live_val Env.upd_self)
    rw [Env.upd_ne hab.symm] at hb
    rw [Env.upd_ne hba] at hr3
    have h2 : TabsOk cfg lib ((env.upd a' (.val k)).upd b' (env b)) { w with asked := w.asked + 1 } (m1.put i f) := by
      refine h.frame rfl fun i l x y hm => ?_
      rw [Env.upd_ne (h.fresh hb hm).1, Env.upd_ne (h.fresh ha hm).1]
      exact ⟨rfl, upd_live (h.value hk2) (upd_live nofun (h.value hm))⟩
    have hva : ((env.upd a' (.val k)).upd b' (env b)) a' = .val k := by rw [Env.upd_ne hab, Env.upd_self]
    have hvb : ((env.upd a' (.val k)).upd b' (env b)).Live b' := by unfold Env.Live; rw [Env.upd_self]; exact h.value hk2
    have hnew : ∀ j l x y, (m1.put i f) j l = some (x, y) → x ≠ a' ∧ y ≠ a' ∧ x ≠ b' ∧ y ≠ b' := fun j l x y hm =>
      ⟨(h.fresh ha hm).1, (h.fresh ha hm).2, (h.fresh hb hm).1, (h.fresh hb hm).2⟩
    refine TRuns.get (TRuns.str (runs_bucketP (lib := lib) hv hp hr3 (has_val hva) _) fun n s4 env4 hr4 e => ?_)
    obtain ⟨rfl, e⟩ := e
    replace e := e.symm
    subst e
    have h5 := h2.add (i := i) (n := w.asked + 1) hab hnew ((h2.tab i).push hva hvb (by rw [Tables.put_self]; exact hfk))
    have heq : (m1.put i f).add i k (a', b') = m1.put i fun x => if x = k then some (a', b') else f x := by
      funext x y
      unfold Tables.add Tables.put
      by_cases hx : x = i
      · rw [if_pos hx, if_pos hx]; simp
      · rw [if_neg hx, if_neg hx, if_neg hx]
    rw [heq] at h5
    refine TRuns.set (TRuns.mono (runs_copyNodesT hij h1 l (f := fun x => if x = k then some (a', b') else f x) hr4 h5 ?_ hnd.2 ?_) ?_ fun _ _ _ h => h)
    · refine ⟨fun x c d hx => ?_, fun o ho => ?_⟩
      · by_cases hxk : x = k
        · subst hxk
          rw [if_pos rfl] at hx
          injection hx with hx; injection hx with hx1 hx2
          subst hx1; subst hx2
          exact ⟨hdead _ ha, hdead _ hb, a, b, hk, by rw [Env.upd_self, hbv]⟩
        · rw [if_neg hxk] at hx
          obtain ⟨h6, h7, y, z, h8, h9⟩ := hc.made x c d hx
          refine ⟨h6, h7, y, z, h8, ?_⟩
          have hx' : (m1.put i f) i x = some (c, d) := by rw [Tables.put_self]; exact hx
          rw [Env.upd_ne (h.fresh hb hx').2, Env.upd_ne (h.fresh ha hx').2, h9]
      · have ho1 : o ≠ a' := fun e => ho ⟨k, a', b', if_pos rfl, Or.inl e⟩
        have ho2 : o ≠ b' := fun e => ho ⟨k, a', b', if_pos rfl, Or.inr e⟩
        rw [Env.upd_ne ho2, Env.upd_ne ho1]
        refine hc.rest o fun ⟨x, c, d, hx, hoc⟩ => ho ⟨x, c, d, ?_, hoc⟩
        dsimp only
        rw [if_neg]
        · exact hx
        · rintro rfl; rw [hfk] at hx; cases hx
    · intro p hp
      obtain ⟨x, h6, h7⟩ := hl p (List.mem_cons_of_mem _ hp)
      refine ⟨x, h6, ?_⟩
      rw [if_neg]
      · exact h7
      · rintro rfl
        rw [hk] at h6; injection h6 with h6
        exact hnd.1 (h6 ▸ hp)
    · rintro _ w' env' ⟨f', h6, h7, h8⟩
      refine ⟨f', h6, h7, fun x => ?_⟩
      rw [h8 x]
      by_cases hx : x = k
      · subst hx
        simp [hk]
      · rw [if_neg hx]
        constructor
        · rintro (h9 | ⟨p, h9, h10⟩)
          · exact Or.inl h9
          · exact Or.inr ⟨p, List.mem_cons_of_mem _ h9, h10⟩
        · rintro (h9 | ⟨p, h9, h10⟩)
          · exact Or.inl h9
          · rcases List.mem_cons.1 h9 with rfl | h9
            · exact absurd (h1.apart.keys h10 hk).2 hx
            · exact Or.inr ⟨p, h9, h10⟩

theorem copy_ok (hr : Reach cfg s env) (h : TabsOk cfg lib env w m) {i j : Nat} : CallOk cfg lib w s env m (.copy i j) := by
  refine TRuns.bind (Q' := fun _ w' env' => ∃ m', TPost cfg env m (.copy i j) (.ret .unit) env' m' ∧ TabsOk cfg lib env' w' m') ?_
    fun a w' s' env' hr h => TRuns.pure hr h
  unfold copyT
  by_cases hij : i = j
  · rw [if_pos hij]
    exact TRuns.pure hr ⟨m, by unfold TPost; dsimp only; rw [if_pos hij]; exact ⟨rfl, rfl, rfl⟩, h⟩
  rw [if_neg hij]
  refine TRuns.alloc hr ?_ fun hx => ⟨m, by unfold TPost; dsimp only; rw [if_neg hij]; exact Or.inr ⟨rfl, Or.inl ⟨rfl, rfl⟩⟩,
    h.frame rfl fun i k a b hm => ⟨rfl, h.value hm⟩, hx⟩
  have h0 : TabsOk cfg lib env { w with asked := w.asked + 1 } m := h.frame rfl fun i k a b hm => ⟨rfl, h.value hm⟩
  refine TRuns.bind (runs_clearT hv hp hL hr h0 i) fun _ w1 s1 env1 hr1 e => ?_
  obtain ⟨hg, rfl⟩ := e
  refine TRuns.get (TRuns.set ?_)
  have hw : (setFn w.tab i (w.tab i).clear) j = w.tab j := setFn_ne _ _ fun e => hij e.symm
  dsimp only
  rw [hw]
  have h1 : TabsOk cfg lib env1 { w with tab := setFn (setFn w.tab i (w.tab i).clear) i (UMap.empty (w.tab j).n), asked := w.asked + 1 }
      (m.put i fun _ => none) := by
    have := TabsOk.gone (n := w.asked + 1) h hg (TabOk.empty (n := (w.tab j).n))
    refine ⟨fun l => ?_, this.apart⟩
    have := this.tab l
    dsimp only at this ⊢
    by_cases hl : l = i
    · subst hl; rw [setFn_same] at this ⊢; exact this
    · rw [setFn_ne _ _ hl] at this ⊢; rw [setFn_ne _ _ hl]; exact this
  have hput : ∀ g f, (m.put i g).put i f = m.put i f := fun g f => by
    funext x; unfold Tables.put; split <;> rfl
  have hj : (m.put i fun _ => none) j = m j := Tables.put_ne fun e => hij e.symm
  have hloop := runs_copyNodesT hv hp hL hij h1 (w.tab j).entries (f := fun _ => none) hr1 (by rw [hput]; exact h1)
    ⟨nofun, fun _ _ => rfl⟩ (entries_nodup (h.tab j)) fun p hp => by
      obtain ⟨k, hk, _⟩ := (h.tab j).bound hp
      exact ⟨k, by rw [hj]; exact hk, rfl⟩
  refine TRuns.onThrow (TRuns.mono hloop (fun _ w2 env2 hq => ?_) fun _ _ _ h => h) fun e w2 s2 env2 hr2 hq => ?_
  · obtain ⟨f', h2, h3, h4⟩ := hq
    rw [hput] at h2
    refine ⟨m.put i f', ?_, h2⟩
    unfold TPost; dsimp only; rw [if_neg hij]
    refine Or.inl ⟨env1, f', rfl, hg, rfl, fun k => ?_, fun k a b a' b' hk hk' => ?_, h3.rest⟩
    · rw [Bool.eq_iff_iff, h4 k, hj]
      simp only [Option.isSome_none, Bool.false_eq_true, false_or]
      rw [Option.isSome_iff_exists]
      constructor
      · rintro ⟨p, _, hp⟩; exact ⟨p, hp⟩
      · rintro ⟨p, hp⟩; exact ⟨p, (((h.tab j).rep k p).1 hp).1, hp⟩
    · obtain ⟨h5, h6, x, y, h7, h8⟩ := h3.made k a' b' hk'
      rw [hj, hk] at h7
      injection h7 with h7; injection h7 with h7 h9
      subst h7; subst h9
      refine ⟨h5, h6, ?_, ?_⟩
      · exact h2.key (i := i) (k := k) (b := b') (by rw [Tables.put_self]; exact hk')
      · rw [h8]
        refine (hg b).2 fun ⟨x, c, d, hx, hb⟩ => ?_
        rcases hb with rfl | rfl
        · exact h.apart.keyValue hx hk rfl
        · exact hij (h.apart.values hx hk).1
  · obtain ⟨rfl, hx, f', h2, h3⟩ := hq
    refine TRuns.mono (runs_clearT hv hp hL hr2 h2 i (E := fun _ _ _ => False)) (fun _ w3 env3 h4 => ?_) fun _ _ _ h => h
    obtain ⟨h4, rfl⟩ := h4
    rw [Tables.put_self] at h4
    have he : env3 = env1 := by
      funext o
      by_cases ho : Of f' o
      · rw [(h4 o).1 ho]
        obtain ⟨k, a, b, h5, h6⟩ := ho
        obtain ⟨h7, h8, _⟩ := h3.made k a b h5
        rcases h6 with rfl | rfl
        · exact h7.symm
        · exact h8.symm
      · rw [(h4 o).2 ho, h3.rest o ho]
    subst he
    refine ⟨m.put i fun _ => none, ?_, ?_, hx⟩
    · unfold TPost; dsimp only; rw [if_neg hij]
      exact Or.inr ⟨rfl, Or.inr ⟨hg, rfl⟩⟩
    · have := TabsOk.gone (n := w2.asked) h2 (i := i) (by rw [Tables.put_self]; exact h4) (h2.tab i).clear
      rw [hput, hput] at this
      exact this

/-- Every call. -/
theorem call_ok (hr : Reach cfg s env) (h : TabsOk cfg lib env w m) {c : TCall} (hc : TPre env m c) : CallOk cfg lib w s env m c := by
  cases c with
  | insert i rk rv k v => exact insert_ok hv hp hL hr h hc
  | remove i k => exact remove_ok hv hp hL hr h hc
  | contains i k => exact contains_ok hv hp hL hr h hc
  | getValue i k => exact getValue_ok hv hp hL hr h hc
  | find i k => exact find_ok hv hp hL hr h hc
  | index i rk k => exact index_ok hv hp hL hr h hc
  | size i => exact size_ok hv hp hL hr h
  | isEmpty i => exact isEmpty_ok hv hp hL hr h
  | iterate i => exact iterate_ok hv hp hL hr h
  | clear i => exact clear_ok hv hp hL hr h
  | copy i j => exact copy_ok hv hp hL hr h
  | move i j => exact move_ok hv hp hL hr h
  | swap i j => exact swap_ok hv hp hL hr h

end

/-! ## Programs -/

/-- How a call ended, and the tables and Strings after it; `none`: undefined. -/
def tresult : Res UInt8 TOut × Tabs → Option (TOutcome × Tabs × St UInt8)
  | (.ok x s, w) => some (.ret x, w, s)
  | (.throw e s, w) => some (.exc e, w, s)
  | (.ub, _) => none

/-- A call on Strings left the keys of all tables as they were and did not end the life of a value. -/
def KeepsEntries (m : Tables) (env env' : Env UInt8) : Prop := (∀ o, IsKey m o → env' o = env o) ∧ ∀ o, IsValue m o → env'.Live o

/-- In this state the Strings are `env` and the tables `m`, entries have no Strings in common, and whatever the next `n` calls on
Strings and tables are, as long as they keep the contracts, they are defined, do what is specified, and throw only if memory is
refused. -/
def Behaves (cfg : Cfg UInt8) (lib : Lib) : Nat → Tabs → St UInt8 → Env UInt8 → Tables → Prop
  | 0, _, _, _, _ => True
  | n + 1, w, s, env, m => Agrees s env ∧ Apart m ∧ (∀ i k a b, m i k = some (a, b) → env a = .val k ∧ env.Live b) ∧
      (∀ op, Pre cfg (shared s) env op → ∃ out s' env', result (run cfg op s) = some (out, s') ∧ Post cfg (shared s) env op out env' ∧
        (KeepsEntries m env env' → Behaves cfg lib n w s' env' m)) ∧
      (∀ c, TPre env m c → ∃ out w' s' env' m', tresult (callT cfg lib c w s) = some (out, w', s') ∧ TPost cfg env m c out env' m' ∧
        (∀ e, out = .exc e → ∃ r, lib.fits r = false) ∧ Behaves cfg lib n w' s' env' m')

theorem behaves_of (hv : cfg.Valid) (hp : cfg.Physical) (hL : lib.L.Ok) : ∀ (n : Nat) {w : Tabs} {s : St UInt8} {env : Env UInt8} {m : Tables},
    Reach cfg s env → TabsOk cfg lib env w m → Behaves cfg lib n w s env m
  | 0, _, _, _, _, _, _ => trivial
  | n + 1, w, s, env, m, hr, h => by
    refine ⟨hr.agrees hv hp, h.apart, fun i k a b hk => ⟨h.key hk, h.value hk⟩, fun op hop => ?_, fun c hc => ?_⟩
    · obtain ⟨out, s', env', h1, h2, h3⟩ := hr.call hv hp hop
      exact ⟨out, s', env', h1, h2, fun hk => behaves_of hv hp hL n h3
        (h.frame rfl fun i k a b hm => ⟨hk.1 a ⟨i, k, b, hm⟩, hk.2 b ⟨i, k, a, hm⟩⟩)⟩
    · have := call_ok hv hp hL hr h hc
      unfold CallOk TRuns at this
      match hx : callT cfg lib c w s, this with
      | (.ok x s', w'), ⟨env', ⟨m', h1, h2⟩, h3⟩ => exact ⟨_, _, _, env', m', rfl, h1, nofun, behaves_of hv hp hL n h3 h2⟩
      | (.throw x s', w'), ⟨env', ⟨m', h1, h2, h4⟩, h3⟩ => exact ⟨_, _, _, env', m', rfl, h1, fun _ _ => h4, behaves_of hv hp hL n h3 h2⟩

/-- Programs of any length. -/
theorem c88_tables_partial (hv : cfg.Valid) (hp : cfg.Physical) (hL : lib.L.Ok) (n : Nat) : Behaves cfg lib n {} {} Env.empty fun _ _ => none :=
  behaves_of hv hp hL n .init ⟨fun _ => TabOk.empty, nofun, nofun, nofun⟩

/-- Calls on Strings that neither change a key nor destroy a value keep the entries. -/
theorem c88_elsewhere {sh : Nat → Bool} {op : Op UInt8} {out : Outcome UInt8} (hk : ∀ i k a b, m i k = some (a, b) → env.Live a ∧ env.Live b)
    (hpre : Pre cfg sh env op) (h : Post cfg sh env op out env') (h1 : ∀ o, IsKey m o → ¬ op.Touches o) (h2 : ∀ o, IsValue m o → op ≠ .destroy o) :
    KeepsEntries m env env' :=
  ⟨fun o ⟨i, k, b, ho⟩ => post_frame h (h1 o ⟨i, k, b, ho⟩) (hk i k o b ho).1,
    fun o ⟨i, k, a, ho⟩ => post_live hpre (h2 o ⟨i, k, a, ho⟩) h (hk i k a o ho).2⟩

/-! ## Examples -/

/-- Enough memory; the array of buckets grows with every entry. -/
def libAmple : Lib := ⟨glibc, fun _ => true, fun n _ => some (n + 2)⟩
/-- Memory for a node, but not for more buckets. -/
def libTight : Lib := ⟨glibc, fun r => decide (r = 0), fun n _ => some (n + 2)⟩

example (n : Nat) := c88_tables_partial (lib := libTight) byteCfg_valid byteCfg_physical glibc_ok n

/-- Strings 0 = "a" and 1 = "b". -/
def stAB : St UInt8 := (exec byteCfg {} [.cstrCtor [97], .cstrCtor [98]]).getD {}

/-- Calls one after the other: how they end. -/
def plays (lib : Lib) : List TCall → Tabs → St UInt8 → Option (List TOutcome × Tabs × St UInt8)
  | [], w, s => some ([], w, s)
  | c :: l, w, s => match tresult (callT byteCfg lib c w s) with
    | none => none
    | some (o, w', s') => (plays lib l w' s').map fun r => (o :: r.1, r.2)

/-- `t.insert("a", "b"); t["b"]; t.insert("a", "a")`; a copy `u` of `t`, whose entry `"b"` is removed with its own key (String 8);
`t.getValue("a")`.  The value of the entry `"a"` in `t` is String 3 and "b"; String 10 is a copy of it. -/
example : (plays libAmple [.insert 0 false false 0 1, .index 0 false 1, .insert 0 false false 0 0, .copy 1 0, .find 1 1, .remove 1 8, .size 1,
      .size 0, .getValue 0 0] {} stAB).map (fun r => (r.1, r.2.2.view 3, r.2.2.view 10)) =
    some ([.ret (.bool true), .ret (.obj 5), .ret (.bool false), .ret .unit, .ret (.entry (some (8, 9))), .ret (.bool true), .ret (.nat 1), .ret (.nat 2),
      .ret (.obj 10)], some [98], some [98]) := by decide +kernel

/-- Refutation of "a call that throws leaves its arguments alone": memory for the node is there, for the buckets it is not.
The entry is not inserted, and the key, passed as an rvalue, is gone: reading its character is undefined. -/
theorem c88_refuted_lost_key : ∃ w' s', callT byteCfg libTight (.insert 0 true false 0 1) {} stAB = (.throw .badAlloc s', w') ∧
    (w'.tab 0).entries = [] ∧ read 0 0 stAB = .ok (some 97) stAB ∧ read 0 0 s' = .ub := ⟨_, _, rfl, rfl, rfl, rfl⟩

end Bdlib.Rca
