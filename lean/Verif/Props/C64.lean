import Verif.Rca.Growth
import Verif.Rca.Witness
import Verif.Props.C05

/-!
# C64 Storage growth is geometric

`elementsMoved` adds up, over a sequence of `append(item)` calls on one object, the elements that were
copied or moved to another address by the call: all elements the object had if the address of its first
element changed, none otherwise (the call writes one new element behind the last one in any case).
The theorem bounds the sum by a linear function of the number of calls, for every starting state a
program can reach — unshared or shared storage, a slice that starts inside its buffer, no storage at all.
-/

namespace Bdlib.Rca
open Bdlib Bdlib.Spec St

variable {T : Type} {cfg : Cfg T}

/-- Address of the first element of object `o`: block, buffer and index in it. -/
def home (s : St T) (o : Nat) : Option (Nat × Nat × Nat) :=
  (s.obj o).bind fun ob => ob.ref.bind fun a => (s.blk a).map fun b => (a, b.gen, ob.offset)

/-- Elements of object `o` that changed their address between `s` and `s'`. -/
def movedBy (s s' : St T) (o : Nat) : Nat :=
  if home s o = home s' o then 0 else ((s.obj o).map Obj.sublen).getD 0

/-- Elements copied or moved while appending `xs` one by one, up to the first call that fails. -/
def elementsMoved (cfg : Cfg T) (o : Nat) : List T → St T → Nat
  | [], _ => 0
  | x :: xs, s =>
    match append cfg o x s with
    | .ok _ s' => movedBy s s' o + elementsMoved cfg o xs s'
    | .throw _ _ => 0
    | .ub => 0

/-- Credit saved up for the next reallocation: for elements beyond 4/5 of the capacity, and for
elements that must move because the storage is shared or the slice does not start at its beginning. -/
def credit (g : Geo) : Nat := (5 * g.len - 4 * g.cap) + if g.refs > 1 ∨ g.off > 0 then 2 * g.len + 2 else 0

theorem home_at {s : St T} {o : Nat} {g : Geo} (h : s.At o g) : home s o = some (g.blk, g.gen, g.off) := by
  obtain ⟨ob, b, h1, h2, h3, h4, h5, h6, h7, h8⟩ := h
  unfold home
  simp [h1, h2, h5, h3, h6]

theorem len_at {s : St T} {o : Nat} {g : Geo} (h : s.At o g) : ((s.obj o).map Obj.sublen).getD 0 = g.len := by
  obtain ⟨ob, b, h1, h2, h3, h4, _⟩ := h
  simp [h1, h4]

theorem room_le (cfg : Cfg T) (n : Nat) : room cfg n ≤ n + 1 := by
  unfold room; split <;> omega

/-- One call is paid for by twelve credits and the credit saved before. -/
theorem moved_credit (hscale : ∀ c, c + c / 4 ≤ cfg.scale c) {s s' : St T} {o : Nat} {g g' : Geo} (h : s.At o g)
    (h' : s'.At o g') (hcap : g.off + g.len ≤ g.cap) (hap : Appends cfg g g') :
    movedBy s s' o + credit g' ≤ 12 + credit g := by
  have hm : movedBy s s' o ≤ g.len := by
    unfold movedBy
    split
    · omega
    · rw [len_at h]; exact Nat.le_refl _
  have hr := le_room cfg (g.len + 1)
  have hr' := room_le cfg (g.len + 1)
  have hs := hscale g.cap
  have hsub : sub64 g.cap g.off = g.cap - g.off := by
    unfold sub64; rw [if_pos (by omega)]
  obtain ⟨hlen, hcase⟩ := hap
  unfold credit
  rcases hcase with ⟨h1, h2, hc | hc | hc⟩ | ⟨h1, h2, h3, h4⟩
  · have h0 : movedBy s s' o = 0 := by
      unfold movedBy
      rw [home_at h, home_at h', hc.1, hc.2.1, hc.2.2.2.1, if_pos rfl]
    rw [h0, hlen, hc.2.2.1, hc.2.2.2.1, h2]
    split <;> omega
  · rw [hlen, hc.1, hc.2.1, h2, if_neg (by omega), if_pos (by omega)]
    omega
  · rw [hlen, hc.2.1, hc.2.2, h2, if_neg (by omega : ¬ (g.refs > 1 ∨ 0 > 0))]
    split <;> omega
  · rw [hlen, h2, h3, if_neg (by omega), if_pos (by omega)]
    omega

theorem at_of_view {s : St T} {o : Nat} {v : List T} (hv : s.view o = some v) :
    (∃ g, s.At o g ∧ g.off + g.len ≤ g.cap ∧ v.length = g.len) ∨
    (∃ ob, s.obj o = some ob ∧ ob.ref = none ∧ ob.offset = 0 ∧ ob.sublen = 0 ∧ v = []) := by
  cases ho : s.obj o with
  | none => unfold St.view at hv; rw [ho] at hv; cases hv
  | some ob =>
    rw [view_eq ho] at hv
    unfold St.viewOf at hv
    cases hr : ob.ref with
    | none =>
      rw [hr] at hv
      dsimp only at hv
      split at hv
      · rename_i h0
        cases hv
        exact Or.inr ⟨ob, rfl, hr, h0.2, h0.1, rfl⟩
      · cases hv
    | some a =>
      rw [hr] at hv
      dsimp only at hv
      cases hb : s.blk a with
      | none => rw [hb] at hv; cases hv
      | some b =>
        rw [hb] at hv
        dsimp only at hv
        split at hv
        · rename_i hle
          cases hv
          refine Or.inl ⟨⟨a, b.gen, b.cells.length, ob.offset, ob.sublen, b.refs⟩,
            ⟨ob, b, ho, hr, rfl, rfl, hb, rfl, rfl, rfl⟩, hle, ?_⟩
          simp [window]; omega
        · cases hv

theorem moved_at (hscale : ∀ c, c + c / 4 ≤ cfg.scale c) {o : Nat} : ∀ (xs : List T) {s : St T} {v : List T} {g : Geo},
    WF cfg s → s.view o = some v → s.At o g → g.off + g.len ≤ g.cap → v.length = g.len →
    elementsMoved cfg o xs s ≤ 12 * xs.length + credit g
  | [], _, _, _, _, _, _, _, _ => by simp [elementsMoved]
  | x :: xs, s, v, g, hwf, hv, hat, hcap, hlen => by
    unfold elementsMoved
    have hspec := append_spec (x := x) hwf hv
    have hgeo := append_geo (cfg := cfg) (x := x) hat hv hlen
    cases hr : append cfg o x s with
    | throw e s' => simp
    | ub => simp
    | ok u s' =>
      rw [hr] at hspec hgeo
      obtain ⟨hwf', _, hv'⟩ := hspec
      obtain ⟨g', hat', hap⟩ := hgeo
      rcases at_of_view hv' with ⟨g2, hat2, hcap2, hlen2⟩ | ⟨ob, _, _, _, _, h0⟩
      · have e : g2.off + g2.len = g'.off + g'.len ∧ g2.cap = g'.cap ∧ g2.len = g'.len := by
          obtain ⟨ob1, b1, a1, a2, a3, a4, a5, a6, a7, a8⟩ := hat2
          obtain ⟨ob2, b2, c1, c2, c3, c4, c5, c6, c7, c8⟩ := hat'
          rw [a1] at c1; cases c1
          have : g2.blk = g'.blk := by rw [a2] at c2; exact Option.some.inj c2
          rw [this] at a5
          rw [a5] at c5; cases c5
          refine ⟨by omega, by omega, by omega⟩
        have ih := moved_at hscale xs hwf' hv' hat' (by omega) (by omega)
        have hm := moved_credit hscale hat hat' hcap hap
        dsimp only
        simp only [List.length_cons]
        omega
      · simp at h0

/-- **C64** Appending `k` elements one by one to an object holding `v` copies or moves at most
`12·k + 3·|v| + 2` elements in total, whatever the object's history and whoever shares its storage.
`hscale` says the growth factor is at least 5/4; the code uses `size_t(c * 1.5)`. -/
theorem c64_linear [DecidableEq T] (hval : cfg.Valid) (hp : cfg.Physical) (hscale : ∀ c, c + c / 4 ≤ cfg.scale c)
    {s : St T} {env : Env T} (h : Reach cfg s env) {o : Nat} {v : List T} (ho : env o = .val v) (xs : List T) :
    elementsMoved cfg o xs s ≤ 12 * xs.length + 3 * v.length + 2 := by
  obtain ⟨hwf, _, _⟩ := h.inv hval hp
  have hv := h.view_eq hval hp ho
  rcases at_of_view hv with ⟨g, hat, hcap, hlen⟩ | ⟨ob, hob, hr, hoff, hsub, rfl⟩
  · have := moved_at hscale xs hwf hv hat hcap hlen
    unfold credit at this
    split at this <;> omega
  · cases xs with
    | nil => simp [elementsMoved]
    | cons x xs =>
      unfold elementsMoved
      have hspec := append_spec (x := x) hwf hv
      have hgeo := append_geo_none (cfg := cfg) (x := x) hob hr hoff hsub hv
      cases hrun : append cfg o x s with
      | throw e s' => simp
      | ub => simp
      | ok u s' =>
        rw [hrun] at hspec hgeo
        obtain ⟨hwf', _, hv'⟩ := hspec
        obtain ⟨g', hat', h1, h2, h3⟩ := hgeo
        rcases at_of_view hv' with ⟨g2, hat2, hcap2, hlen2⟩ | ⟨ob, _, _, _, _, h0⟩
        · have e : g2.off + g2.len = g'.off + g'.len ∧ g2.cap = g'.cap ∧ g2.len = g'.len := by
            obtain ⟨ob1, b1, a1, a2, a3, a4, a5, a6, a7, a8⟩ := hat2
            obtain ⟨ob2, b2, c1, c2, c3, c4, c5, c6, c7, c8⟩ := hat'
            rw [a1] at c1; cases c1
            have : g2.blk = g'.blk := by rw [a2] at c2; exact Option.some.inj c2
            rw [this] at a5
            rw [a5] at c5; cases c5
            refine ⟨by omega, by omega, by omega⟩
          have ih := moved_at hscale xs hwf' hv' hat' (by omega) (by omega)
          have hm : movedBy s s' o = 0 := by
            unfold movedBy
            split
            · rfl
            · rw [hob]; simp [hsub]
          unfold credit at ih
          rw [h1, h2, h3, if_neg (by omega)] at ih
          dsimp only
          simp only [List.length_cons]
          omega
        · simp at h0

/-- The growth factor of the witnesses, and of the code where `c * 1.5` is exact. -/
theorem scale_half (c : Nat) : c + c / 4 ≤ c + c / 2 := by omega

-- Non-vacuity: a slice sharing its buffer with the original, then 12 appends; 35 elements really move.
example : elementsMoved arrCfg 1 (List.range 12) stA ≤ 155 := by
  simpa using c64_linear arrCfg_valid arrCfg_physical scale_half reachA (o := 1) (v := [2, 3, 4]) rfl (List.range 12)
example : elementsMoved arrCfg 1 (List.range 12) stA = 35 := by decide +kernel

end Bdlib.Rca
