import Verif.Nest.Texts

/-!
# The hash of an array of strings
-/

namespace Bdlib.Nest
open Bdlib Bdlib.Spec Bdlib.Rca Bdlib.Str

variable {c : Conf} {w : World} {es : Env UInt8} {ea : Env Elem} {lost : Nat}

theorem cell_strs {a i t : Nat} (h : cell a i w = .ok t w) (s : St UInt8) : cell a i { w with strs := s } = .ok t { w with strs := s } := by
  unfold cell at h ⊢
  cases hr : readRange a i 1 w.arrs with
  | ub =>
    change P.bind (P.arrs _) _ w = _ at h
    unfold P.bind P.arrs at h
    rw [hr] at h; cases h
  | throw e s' =>
    rw [pbind_throw (arrs_throw hr)] at h; cases h
  | ok l s' =>
    rw [pbind_ok (arrs_ok hr)] at h
    rw [pbind_ok (arrs_ok (w := { w with strs := s }) hr)]
    match l, h with
    | [], h => cases h
    | [x], h =>
      change Res.ok x _ = _ at h
      simp only [Res.ok.injEq] at h
      obtain ⟨e1, e2⟩ := h
      subst e1
      show Res.ok x _ = _
      have : s' = w.arrs := by rw [← e2]
      rw [this]
    | _ :: _ :: _, h => cases h

theorem runs_hash {T : Type} [DecidableEq T] {cfg : Cfg T} {s : St T} {env : Env T} {E : Exc → Env T → Prop} (hv : cfg.Valid)
    (hp : cfg.Physical) (hr : Reach cfg s env) {o : Nat} {v : List T} (ho : env o = .val v) :
    Runs cfg (Rca.hash cfg o) s (fun h env' => h.toNat = djb (fun x => (cfg.hasher x).toNat) v ∧ env' = env) E :=
  runs_look hv hp hr (op := .hash o) rfl (has_val ho) (fun _ _ h => h) fun a h => by
    rw [get_val ho] at h
    simp only [Out.hash.injEq] at h
    exact ⟨h, rfl⟩

theorem readRange_whole {T : Type} [DecidableEq T] {cfg : Cfg T} {s : St T} {env : Env T} (hv : cfg.Valid)
    (hp : cfg.Physical) (hr : Reach cfg s env) {o : Nat} {v : List T} (ho : env o = .val v) :
    readRange o 0 v.length s = .ok v s := by
  have : (readRange o 0 v.length s).Sat (fun l s' => l = v ∧ s' = s) (fun _ _ => False) := by
    refine readRange_view (hr.inv hv hp).1 (hr.view hv hp ho) (by omega) ⟨?_, rfl⟩
    unfold window
    simp
  cases h : readRange o 0 v.length s with
  | ub => rw [h] at this; exact this.elim
  | throw e s' => rw [h] at this; exact this.elim
  | ok l s' => rw [h] at this; obtain ⟨rfl, rfl⟩ := this; rfl

theorem djb_lt {T : Type} (h : T → Nat) (v : List T) : djb h v < 2147483648 := Nat.mod_lt _ (by decide)

theorem elemHash_toNat (cfg : Cfg UInt8) (v : List UInt8) : (elemHash cfg (.val v)).toNat = djb (fun x => (cfg.hasher x).toNat) v := by
  have := djb_lt (fun x => (cfg.hasher x).toNat) v
  unfold elemHash
  rw [UInt64.toNat_ofNat_of_lt']
  show _ < 18446744073709551616
  omega

theorem hashLoop_eq (hc : c.Good) {C : Nat → Prop} {env : Env UInt8} (hV : View c w es ea lost C env) {a : Nat} {vs : List Bytes}
    (ha : ea a = .val (elems vs)) : ∀ (k i : Nat) (acc : UInt64) (s : St UInt8), i + k = vs.length → Reach c.str s env →
      ∃ s', hashLoop c a i k acc { w with strs := s } = .ok (Rca.hashLoop (elemHash c.str) acc ((elems vs).drop i)) { w with strs := s' } ∧
        Reach c.str s' env
  | 0, i, acc, s, hi, hr => ⟨s, by
      unfold hashLoop
      rw [List.drop_eq_nil_of_le (by simp [elems]; omega)]
      rfl, hr⟩
  | k + 1, i, acc, s, hi, hr => by
    have hlt : i < vs.length := by omega
    obtain ⟨t, h1, _, h3⟩ := (hV.arr a _ ha).2 i (.val vs[i]) (by simp [elems, hlt])
    have hrun := runs_hash (E := fun _ _ => False) hc.valid hc.phys hr h3
    unfold Runs at hrun
    cases hs : Rca.hash c.str t s with
    | ub => rw [hs] at hrun; exact hrun.elim
    | throw e s' => rw [hs] at hrun; obtain ⟨_, h, _⟩ := hrun; exact h.elim
    | ok x s' =>
      rw [hs] at hrun
      obtain ⟨env', ⟨hx, rfl⟩, hr', _⟩ := hrun
      obtain ⟨s'', h4, h5⟩ := hashLoop_eq hc hV ha k (i + 1) (((acc <<< 5) + acc) + x) s' (by omega) hr'
      refine ⟨s'', ?_, h5⟩
      unfold hashLoop
      rw [pbind_ok (cell_strs h1 s), pbind_ok (show P.strs (Rca.hash c.str t) { w with strs := s } = .ok x { w with strs := s' } by
        unfold P.strs; dsimp only; rw [hs]), h4]
      have hx' : x = elemHash c.str (.val vs[i]) := UInt64.toNat_inj.mp (by rw [hx, elemHash_toNat])
      have hle : i < (elems vs).length := by simp [elems]; omega
      rw [List.drop_eq_getElem_cons hle, Rca.hashLoop, hx', show (elems vs)[i] = .val vs[i] by simp [elems]]

/-- Hash of the hashes. -/
theorem djb_elems (cfg : Cfg UInt8) (vs : List Bytes) :
    djb (fun x => (elemHash cfg x).toNat) (elems vs) = djb (fun v => djb (fun x => (cfg.hasher x).toNat) v) vs := by
  unfold elems
  conv => lhs; unfold djb
  rw [List.foldl_map]
  simp only [elemHash_toNat]
  rfl

theorem looks_hash (hc : c.Good) (h : All c w es ea lost) {a : Nat} {vs : List Bytes} (ha : ea a = .val (elems vs)) :
    Looks c lost (hash c a) w es ea (fun x => x.toNat = djb (fun v => djb (fun x => (c.str.hasher x).toNat) v) vs) := by
  intro E
  obtain ⟨C, env0, hV⟩ := all_view hc h
  have hlen' := (hV.arr a _ ha).1
  unfold Rca.length at hlen'
  obtain ⟨ob, s1, h1, h2⟩ := bind_inv hlen'
  obtain ⟨rfl, ho⟩ := getObj_inv h1
  change Bdlib.Res.ok _ _ = _ at h2
  simp only [Bdlib.Res.ok.injEq, and_true] at h2
  have hsub : ob.sublen = vs.length := by rw [h2]; simp [elems]
  unfold Ends hash
  rw [pbind_ok (show P.arrs (getObj a) w = .ok ob w by unfold P.arrs; rw [getObj_eq ho])]
  by_cases hh : ob.hash ≠ 0
  · rw [if_pos hh]
    refine ⟨es, ea, h, ?_, rfl, rfl⟩
    obtain ⟨us, H, hnd, hlen, hlive, rfl, σ, ⟨env, hR⟩, hA⟩ := h
    have hrun := runs_hash (E := fun _ _ => False) (val_valid c) (val_phys hc) hA ha
    unfold Runs Rca.hash at hrun
    rw [bind_ok (getObj_eq (by rw [hR.like.obj]; exact ho)), if_pos hh] at hrun
    obtain ⟨env', ⟨h3, -⟩, -⟩ := hrun
    show ob.hash.toNat = _
    rw [h3]
    exact djb_elems c.str vs
  · rw [if_neg hh]
    obtain ⟨s', h4, h5⟩ := hashLoop_eq hc hV ha ob.sublen 0 5381 w.strs (by omega) hV.reach
    have hback := hV.back s' env0 h5 fun _ _ => rfl
    rw [← hV.mine] at hback
    obtain ⟨us, H, hnd, hlen, hlive, rfl, σ, ⟨env, hR⟩, hA⟩ := hback
    have hoσ : σ.obj a = some ob := by rw [hR.like.obj]; exact ho
    have hrun := runs_hash (E := fun _ _ => False) (val_valid c) (val_phys hc) hA ha
    have hread := readRange_whole (val_valid c) (val_phys hc) hA ha
    rw [show (elems vs).length = ob.sublen by rw [hsub]; simp [elems]] at hread
    unfold Runs Rca.hash at hrun
    rw [bind_ok (getObj_eq hoσ), if_neg hh, bind_ok hread] at hrun
    dsimp only at hrun
    rw [List.drop_zero] at h4
    generalize hx : Rca.hashLoop (elemHash c.str) 5381 (elems vs) = x at *
    rw [pbind_ok h4]
    rw [show c.val.hasher = elemHash c.str from rfl, hx, bind_ok (show putObj a _ σ = .ok () _ from rfl)] at hrun
    rw [pbind_ok (arrs_ok (w := { w with strs := s' }) (show putObj a _ w.arrs = .ok () _ from rfl))]
    obtain ⟨env', ⟨h6, rfl⟩, h7, -⟩ := hrun
    refine ⟨_, _, ⟨us, H, hnd, hlen, hlive, rfl, _, ⟨env, ?_⟩, h7⟩, ?_, rfl, rfl⟩
    · exact ⟨hR.reach, hR.like.setObj a _, hR.nodup, hR.disj, hR.cell, hR.rest⟩
    · show UInt64.toNat _ = _
      rw [h6]
      exact djb_elems c.str vs

end Bdlib.Nest
