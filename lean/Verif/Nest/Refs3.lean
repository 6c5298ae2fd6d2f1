import Verif.Nest.Refs2
import Verif.Str.Search

/-!
# `split` with and without its assertions
-/

namespace Bdlib.Nest.Refs
open Bdlib Bdlib.Spec Bdlib.Rca Bdlib.Str Bdlib.Nest
open Bdlib.Nest.P (strs arrs undef)

variable {c : Conf} {S S' : St UInt8} {A A' : St Nat} {prot : List Nat}

/-! ## A temporary -/

theorem Tidy.change {cells : List Nat} {k : Nat} {prot' : List Nat} (h : Tidy S cells k prot)
    (hs : ∀ x ∈ cells, S'.obj x = S.obj x) (ha : ∀ x ∈ prot', x ∉ cells) : Tidy S' cells k prot' := by
  refine ⟨h.nodup, fun x hx => ?_, fun x hx => ?_, ha, h.len⟩
  · rw [hs x hx]; exact h.live x hx
  · obtain ⟨ob, h1, h2⟩ := h.clean x hx
    exact ⟨ob, (hs x (List.mem_of_mem_drop hx)).trans h1, h2⟩

theorem substring_ok {T : Type} {S S' : St T} {o t b : Nat} {oo : Obj} {B : Block T} {i l : Int} (ho : S.obj o = some oo)
    (hr : oo.ref = some b) (hb : S.blk b = some B) (h : Rca.substring o i l S = .ok t S') :
    t = S.objs.length ∧ (∃ ot, S'.obj t = some ot ∧ ot.ref = some b) ∧ S'.blk b = some { B with refs := B.refs + 1 } ∧
      ∀ x, x < S.objs.length → S'.obj x = S.obj x := by
  unfold Rca.substring at h
  rw [Rca.bind_ok (copyCtor_some ho hr hb)] at h
  obtain ⟨u, S2, h1, h2⟩ := bind_inv h
  cases h2
  generalize hS1 : (St.setBlk { S with objs := S.objs ++ [some oo] } b (some { B with refs := B.refs + 1 })) = S1 at h1
  have hn : S1.obj S.objs.length = some oo := by rw [← hS1]; exact obj_push_new _
  have hold : ∀ x, x < S.objs.length → S1.obj x = S.obj x := by
    intro x hx; rw [← hS1]; exact obj_push_old _ hx
  have hb1 : S1.blk b = some { B with refs := B.refs + 1 } := by
    rw [← hS1]; exact St.blk_setBlk_self _ (St.blk_lt hb)
  have key : ∃ ob, S' = S1.setObj S.objs.length (some ob) ∧ ob.ref = some b := by
    unfold Rca.slice at h1
    rw [Rca.bind_ok (Rca.getObj_eq hn)] at h1
    simp only at h1
    repeat' split at h1
    all_goals first
      | (cases h1; exact ⟨_, rfl, hr⟩)
      | cases h1
  obtain ⟨ob, rfl, hob⟩ := key
  refine ⟨rfl, ⟨ob, St.obj_setObj_self _ (St.obj_lt hn), hob⟩, hb1, fun x hx => ?_⟩
  rw [St.obj_setObj_ne _ (by omega)]
  exact hold x hx

theorem onThrow_inv {α : Type} {m : P α} {d : P Unit} {w w' : World} {a : α} (h : m.onThrow d w = .ok a w') : m w = .ok a w' := by
  unfold P.onThrow at h
  cases hm : m w with
  | ok x w1 => rw [hm] at h; exact h
  | ub => rw [hm] at h; cases h
  | throw e w1 =>
    rw [hm] at h
    simp only at h
    cases hd : d w1 with
    | ok _ _ => rw [hd] at h; cases h
    | throw _ _ => rw [hd] at h; cases h
    | ub => rw [hd] at h; cases h

/-- What holds between the steps of `split`: `o` shares block `b`, with counter `r`, and `a` has `k` strings. -/
def Mid (o a b : Nat) (oo : Obj) (k : Nat) (r : Int) (w : World) : Prop :=
  Row w.strs w.arrs a k [o] ∧ w.strs.obj o = some oo ∧ oo.ref = some b ∧ 1 ≤ r ∧ ∃ B, w.strs.blk b = some B ∧ B.refs = r

/-- One piece more, one reference more. -/
theorem putPiece_mid {o a b k : Nat} {oo : Obj} {r : Int} {i l : Int} {w w' : World} {u : Unit} (hM : Mid o a b oo k r w)
    (h : putPiece c o a i l w = .ok u w') : Mid o a b oo (k + 1) (r + 1) w' := by
  obtain ⟨⟨oa, g1, g2, g3, g4⟩, ho, hr, h1, B, hb, rfl⟩ := hM
  unfold putPiece withString at h
  obtain ⟨t, w1, h2, h⟩ := pbind_inv h
  obtain ⟨S1, h3, rfl⟩ := strs_inv h2
  obtain ⟨ht, ⟨ot, hot, hotr⟩, hb1, hold⟩ := substring_ok ho hr hb h3
  obtain ⟨u1, w2, h4, h⟩ := pbind_inv h
  have h4a := onThrow_inv h4
  have hol := St.obj_lt ho
  have hrow : Row S1 w.arrs a k [t, o] := by
    refine ⟨oa, g1, g2, g3, ?_⟩
    rcases g4 with g4 | ⟨q, Q, q1, q2, q3, q4⟩
    · exact Or.inl g4
    · refine Or.inr ⟨q, Q, q1, q2, q3, q4.change (fun x hx => hold x (live_lt (q4.live x hx))) ?_⟩
      intro x hx hm
      rcases List.mem_cons.1 hx with rfl | hx
      · have := live_lt (q4.live _ hm)
        omega
      · exact q4.apart x hx hm
  have hp : ∀ x ∈ [t, o], S1.obj x ≠ none := by
    intro x hx
    rcases List.mem_cons.1 hx with rfl | hx
    · rw [hot]; simp
    · cases List.mem_singleton.1 hx
      rw [hold _ hol, ho]; simp
  obtain ⟨⟨oa', i1, i2, i3, i4⟩, j2, j3⟩ := append_row hrow hp List.mem_cons_self hot hotr hb1 h4a
  have hot2 : w2.strs.obj t = some ot := (j2 t List.mem_cons_self).trans hot
  have ho2 : w2.strs.obj o = some oo := (j2 o (List.mem_cons_of_mem _ List.mem_cons_self)).trans ((hold _ hol).trans ho)
  obtain ⟨S3, k1, k2, k3⟩ := destroy_some (cfg := c.str) hot2 hotr j3 (by simp only; omega)
  rw [pbind_ok (show delete c t w2 = .ok () ⟨S3, w2.arrs⟩ from strs_ok k1)] at h
  cases h
  refine ⟨⟨oa', i1, i2, i3, ?_⟩, ?_, hr, by omega, _, k2, by simp only; omega⟩
  · rcases i4 with i4 | ⟨q, Q, q1, q2, q3, q4⟩
    · exact Or.inl i4
    · refine Or.inr ⟨q, Q, q1, q2, q3, q4.change (fun x hx => k3 x ?_) ?_⟩
      · rintro rfl
        exact q4.apart _ List.mem_cons_self hx
      · exact fun x hx => q4.apart x (List.mem_cons_of_mem _ hx)
  · show S3.obj o = some oo
    rw [k3 o (by omega)]
    exact ho2

/-! ## Two programs that end alike -/

/-- `md` ends as `m` does; if both return, `Q` holds of the two results and the state. -/
def Sim {α β : Type} (m : P α) (md : P β) (w : World) (Q : α → β → World → Prop) : Prop :=
  match m w with
  | .ok a w' => ∃ b, md w = .ok b w' ∧ Q a b w'
  | .throw e w' => md w = .throw e w'
  | .ub => md w = .ub

section
variable {α β γ δ : Type} {w : World}

theorem Sim.bind {m : P α} {md : P β} {f : α → P γ} {g : β → P δ} {Q : α → β → World → Prop} {R : γ → δ → World → Prop}
    (h : Sim m md w Q) (hf : ∀ a b w', Q a b w' → Sim (f a) (g b) w' R) : Sim (m >>= f) (md >>= g) w R := by
  unfold Sim at h ⊢
  rw [show (m >>= f) w = P.bind m f w from rfl, show (md >>= g) w = P.bind md g w from rfl]
  unfold P.bind
  cases hm : m w with
  | ub => rw [hm] at h; simp only at h ⊢; rw [h]
  | throw e w' => rw [hm] at h; simp only at h ⊢; rw [h]
  | ok a w' =>
    rw [hm] at h
    obtain ⟨b, h1, h2⟩ := h
    rw [h1]
    exact hf a b w' h2

theorem Sim.same {m : P α} {Q : α → α → World → Prop} (h : ∀ a w', m w = .ok a w' → Q a a w') : Sim m m w Q := by
  unfold Sim
  cases hm : m w with
  | ub => rfl
  | throw e w' => rfl
  | ok a w' => exact ⟨a, rfl, h a w' hm⟩

theorem Sim.ret {a : α} {b : β} {Q : α → β → World → Prop} (h : Q a b w) : Sim (pure a) (pure b) w Q := ⟨b, rfl, h⟩

theorem Sim.check {m : P α} {md : Unit → P β} {b : Bool} {Q : α → β → World → Prop} (hb : b = true) (h : Sim m (md ()) w Q) :
    Sim m (check b >>= md) w Q := by
  subst hb
  exact h

theorem Sim.onThrow {m : P α} {md : P β} {d : P Unit} {Q : α → β → World → Prop} (h : Sim m md w Q) :
    Sim (m.onThrow d) (md.onThrow d) w Q := by
  unfold Sim P.onThrow at *
  cases hm : m w with
  | ub => rw [hm] at h; simp only at h ⊢; rw [h]
  | ok a w' => rw [hm] at h; obtain ⟨b, h1, h2⟩ := h; simp only; rw [h1]; exact ⟨b, rfl, h2⟩
  | throw e w' =>
    rw [hm] at h
    simp only at h ⊢
    rw [h]
    simp only
    cases d w' <;> rfl

theorem Sim.eq {m md : P α} (h : Sim m md w fun a b _ => a = b) : md w = m w := by
  unfold Sim at h
  cases hm : m w with
  | ub => rw [hm] at h; exact h
  | throw e w' => rw [hm] at h; exact h
  | ok a w' => rw [hm] at h; obtain ⟨b, h1, rfl⟩ := h; exact h1

end

/-! ## The loop -/

theorem scanUp_lt {p : Nat → Eff Bool} : ∀ (k i j : Nat), scanUp p i k = .ret (some j) → i ≤ j ∧ j < i + k
  | 0, _, _, h => by cases h
  | k + 1, i, j, h => by
    unfold scanUp at h
    cases hp : p i with
    | ret b =>
      rw [hp, Eff.ret_bind] at h
      cases b with
      | true => cases h; omega
      | false =>
        have := scanUp_lt k (i + 1) j h
        omega
    | exc e => rw [hp] at h; cases h
    | ub => rw [hp] at h; cases h
    | more => rw [hp] at h; cases h

/-- Whatever is found ends within the string, with `memmem` and without. -/
theorem find_bound {L : Libc} {v d : Bytes} {it pos : Nat} (hit : it < v.length)
    (h : Str.find_ L v d it = .ret pos) : it + (if pos = npos then v.length - it else pos) ≤ v.length := by
  by_cases hp : pos = npos
  · rw [if_pos hp]; omega
  · rw [if_neg hp]
    unfold Str.find_ at h
    by_cases hd : d.length = 0
    · rw [if_pos hd] at h
      cases h; omega
    · rw [if_neg hd, if_neg (by omega)] at h
      simp only at h
      by_cases hm : L.memmem = true
      · rw [if_pos hm] at h
        rcases memmem_spec (v.drop it) d with ⟨m, h1, h2⟩ | ⟨h1, _⟩
        · rw [h1] at h
          cases h
          have := h2.1.le
          rw [List.length_drop] at this
          omega
        · rw [h1] at h
          cases h
          exact absurd rfl hp
      · rw [if_neg hm] at h
        split at h
        · cases hs : scanUp (fun i => matchAt L v d i (min d.length (v.length - it - i))) it (v.length - it - d.length + 1 - it) with
          | ret r =>
            rw [hs, Eff.ret_bind] at h
            cases r with
            | none => cases h; exact absurd rfl hp
            | some i =>
              cases h
              have := scanUp_lt _ _ _ hs
              omega
          | exc e => rw [hs] at h; cases h
          | ub => rw [hs] at h; cases h
          | more => rw [hs] at h; cases h
        · cases h
          exact absurd rfl hp

theorem length_inv {T : Type} {o n : Nat} {s s' : St T} (h : Rca.length o s = .ok n s') : s' = s := by
  unfold Rca.length at h
  obtain ⟨ob, s1, h1, h2⟩ := bind_inv h
  obtain ⟨rfl, _⟩ := getObj_inv h1
  cases h2
  rfl

/-- Reading the elements changes nothing. -/
theorem contents_inv {T : Type} {o : Nat} {s s' : St T} {v : List T} (h : contents o s = .ok v s') : s' = s := by
  unfold contents at h
  obtain ⟨n, s1, h1, h2⟩ := bind_inv h
  have := length_inv h1
  subst s1
  exact (readRange_inv h2).1

theorem sim_loop {L : Libc} {o delim a cap b : Nat} {oo : Obj} : ∀ (fuel it k : Nat) (r : Int) (w : World),
    Mid o a b oo k r w → Sim (splitLoop c L o delim a cap fuel it) (splitLoopDebug c L o delim a cap fuel it r) w
      (fun it' p w' => p.1 = it' ∧ ∃ k', Mid o a b oo k' p.2 w')
  | 0, _, _, _, _, _ => by unfold splitLoop splitLoopDebug; rfl
  | fuel + 1, it, k, r, w, hM => by
    unfold splitLoop splitLoopDebug
    refine Sim.bind (Q := fun x y w' => x = y ∧ w' = w) (Sim.same fun n w' h => ?_) ?_
    · obtain ⟨A1, h1, rfl⟩ := arrs_inv h
      have := length_inv h1
      subst this
      exact ⟨rfl, rfl⟩
    rintro n _ w' ⟨rfl, hw⟩
    subst w'
    by_cases hn : ¬ n < cap
    · rw [if_pos hn, if_pos hn]
      exact Sim.ret ⟨rfl, k, hM⟩
    rw [if_neg hn, if_neg hn]
    have hread : ∀ x, Sim (strs (contents x)) (strs (contents x)) w (fun v v' w' => v = v' ∧ w' = w) := by
      intro x
      refine Sim.same fun v w' h => ?_
      obtain ⟨S1, h1, rfl⟩ := strs_inv h
      have := contents_inv h1
      subst this
      exact ⟨rfl, rfl⟩
    refine Sim.bind (hread o) ?_
    rintro v _ w' ⟨rfl, hw⟩
    subst w'
    refine Sim.bind (hread delim) ?_
    rintro d _ w' ⟨rfl, hw⟩
    subst w'
    by_cases hi : trimIt v d it ≥ v.length
    · simp only [if_pos hi]
      exact Sim.ret ⟨rfl, k, hM⟩
    simp only [if_neg hi]
    refine Sim.bind (Q := fun x y w' => x = y ∧ w' = w ∧ Str.find_ L v d (trimIt v d it) = .ret x) (Sim.same fun n w' h => ?_) ?_
    · obtain ⟨S1, h1, rfl⟩ := strs_inv h
      cases hf : Str.find_ L v d (trimIt v d it) <;> rw [hf] at h1 <;> cases h1
      exact ⟨rfl, rfl, rfl⟩
    rintro pos _ w' ⟨rfl, hw, hf⟩
    subst w'
    refine Sim.bind (Q := fun _ _ w' => Mid o a b oo (k + 1) (r + 1) w') (Sim.same fun u w' h => putPiece_mid hM h) ?_
    intro _ _ w' hM'
    have h1 := hM.2.2.2.1
    refine Sim.check (decide_eq_true (by omega)) (Sim.check (decide_eq_true ?_) ?_)
    · have := find_bound (by omega) hf
      omega
    · exact sim_loop fuel _ (k + 1) (r + 1) w' hM'

theorem sim_rest {o delim a limit it b k : Nat} {oo : Obj} {r : Int} {w : World} (hM : Mid o a b oo k r w) :
    Sim (splitRest c o delim a limit it) (splitRestDebug c o delim a limit it r) w (fun _ r' w' => ∃ k', Mid o a b oo k' r' w') := by
  unfold splitRest splitRestDebug
  by_cases hl : limit ≠ npos
  · rw [if_pos hl, if_pos hl]
    have hread : ∀ x, Sim (strs (contents x)) (strs (contents x)) w (fun v v' w' => v = v' ∧ w' = w) := by
      intro x
      refine Sim.same fun v w' h => ?_
      obtain ⟨S1, h1, rfl⟩ := strs_inv h
      have := contents_inv h1
      subst this
      exact ⟨rfl, rfl⟩
    refine Sim.bind (hread o) ?_
    rintro v _ w' ⟨rfl, hw⟩
    subst w'
    refine Sim.bind (hread delim) ?_
    rintro d _ w' ⟨rfl, hw⟩
    subst w'
    have h1 := hM.2.2.2.1
    unfold Sim
    cases hp : putPiece c o a (trimIt v d it) (-1) w with
    | ub => simp only; exact pbind_ub hp
    | throw e w' => simp only; exact pbind_throw hp
    | ok u w' =>
      simp only
      refine ⟨r + 1, ?_, k + 1, putPiece_mid hM hp⟩
      rw [pbind_ok hp]
      have : decide (r + 1 ≠ 0) = true := decide_eq_true (by omega)
      rw [this]
      rfl
  · rw [if_neg hl, if_neg hl]
    exact Sim.ret ⟨k, hM⟩

/-! ## The local string -/

/-- Everything that was there is as it was. -/
def Keep {T : Type} (S S' : St T) : Prop :=
  (∀ x, x < S.objs.length → S'.obj x = S.obj x) ∧ ∀ b, b < S.heap.length → S'.blk b = S.blk b

theorem charCtor_keep {T : Type} {cfg : Cfg T} {nul ch : T} {S S' : St T} {t : Nat} (h : Rca.charCtor cfg nul ch S = .ok t S') :
    Keep S S' := by
  unfold Rca.charCtor at h
  rw [Rca.bind_ok (show Rca.newObj {} S = .ok S.objs.length { S with objs := S.objs ++ [some {}] } from rfl)] at h
  obtain ⟨u, S1, h1, h⟩ := bind_inv h
  have h1a : rcaReserve cfg S.objs.length 2 id { S with objs := S.objs ++ [some {}] } = .ok u S1 := by
    unfold M.onThrow at h1
    cases hm : rcaReserve cfg S.objs.length 2 id { S with objs := S.objs ++ [some {}] } with
    | ok x s => rw [hm] at h1; exact h1
    | ub => rw [hm] at h1; cases h1
    | throw e s =>
      rw [hm] at h1
      simp only at h1
      cases hd : Rca.destroy cfg S.objs.length s with
      | ok _ _ => rw [hd] at h1; cases h1
      | throw _ _ => rw [hd] at h1; cases h1
      | ub => rw [hd] at h1; cases h1
  -- storage of its own
  have key : Keep S S1 ∧ ∃ ob, S1.obj S.objs.length = some ob ∧ ob.ref = some S.heap.length := by
    unfold rcaReserve at h1a
    rw [Rca.bind_ok (Rca.getObj_eq (obj_push_new _))] at h1a
    simp only at h1a
    obtain ⟨q, S2, h2, h1a⟩ := bind_inv h1a
    unfold newRef at h2
    obtain ⟨g, S3, h3, h2⟩ := bind_inv h2
    have hS3 : S3.objs = S.objs ++ [some ({} : Obj)] ∧ S3.heap = S.heap := by
      unfold alloc at h3
      simp only at h3
      split at h3 <;> cases h3
      exact ⟨rfl, rfl⟩
    cases h2
    obtain ⟨u', S4, h4, h1a⟩ := bind_inv h1a
    cases h4
    rw [Rca.bind_ok (show (pure S3.heap.length : M T Nat) _ = .ok _ _ from rfl)] at h1a
    obtain ⟨off, S5, h5, h1a⟩ := bind_inv h1a
    rw [hS3.2] at h5
    generalize hS4 : St.setObj { S3 with heap := S.heap ++ [some { gen := 0, cells := [], refs := 1 }] } S.objs.length
      (some { ref := some S.heap.length }) = S4 at h5
    have i1 : S4.obj S.objs.length = some { ref := some S.heap.length } := by
      rw [← hS4]
      refine St.obj_setObj_self _ ?_
      simp [hS3.1]
    have i2 : ∀ x, x < S.objs.length → S4.obj x = S.obj x := by
      intro x hx
      rw [← hS4, St.obj_setObj_ne _ (by omega)]
      unfold St.obj
      simp only [hS3.1]
      rw [List.getElem?_append_left hx]
    have i3 : ∀ b, b < S.heap.length → S4.blk b = S.blk b := by
      intro b hb
      rw [← hS4, St.blk_setObj]
      unfold St.blk
      rw [List.getElem?_append_left hb]
    have j : S5.objs = S4.objs ∧ ∀ b, b ≠ S.heap.length → S5.blk b = S4.blk b := by
      unfold Rca.arefReserve at h5
      obtain ⟨b, S6, h6, h5⟩ := bind_inv h5
      obtain ⟨h6s, _⟩ := getBlk_inv h6
      subst S6
      simp only at h5
      split at h5
      · obtain ⟨g', S7, h7, h5⟩ := bind_inv h5
        have hS7 : S7.objs = S4.objs ∧ S7.heap = S4.heap := by
          unfold alloc at h7
          simp only at h7
          split at h7 <;> cases h7
          exact ⟨rfl, rfl⟩
        have hb7 : ∀ b, S7.blk b = S4.blk b := fun b => by unfold St.blk; rw [hS7.2]
        split at h5
        · obtain ⟨_, S8, h8, h5⟩ := bind_inv h5
          cases h8
          cases h5
          exact ⟨hS7.1, fun b hb => (St.blk_setBlk_ne _ hb).trans (hb7 b)⟩
        · split at h5
          · obtain ⟨_, S8, h8, h5⟩ := bind_inv h5
            cases h8
            obtain ⟨_, S8, h8, h5⟩ := bind_inv h5
            cases h8
            cases h5
            exact ⟨hS7.1, fun b hb => (St.blk_setBlk_ne _ hb).trans (hb7 b)⟩
          · cases h5
      · split at h5
        · split at h5
          · obtain ⟨_, S8, h8, h5⟩ := bind_inv h5
            cases h8
            cases h5
            exact ⟨rfl, fun b hb => St.blk_setBlk_ne _ hb⟩
          · cases h5
        · cases h5
          exact ⟨rfl, fun _ _ => rfl⟩
    obtain ⟨ob, S6, h6, h1a⟩ := bind_inv h1a
    obtain ⟨h6s, h7⟩ := getObj_inv h6
    subst S6
    cases h1a
    have hob : ob = { ref := some S.heap.length } := by
      have : S5.obj S.objs.length = S4.obj S.objs.length := by unfold St.obj; rw [j.1]
      rw [this, i1] at h7
      exact (Option.some.inj h7).symm
    refine ⟨⟨fun x hx => ?_, fun b hb => ?_⟩, _, St.obj_setObj_self _ (St.obj_lt h7), by rw [hob]⟩
    · rw [St.obj_setObj_ne _ (by omega), ← i2 x hx]
      unfold St.obj
      rw [j.1]
    · rw [St.blk_setObj, j.2 b (by omega)]
      exact i3 b hb
  obtain ⟨⟨k1, k2⟩, ob, k3, k4⟩ := key
  have hwr : ∀ (s s' : St T) (i : Nat) (xs : List T) (u : Unit), writeRange S.objs.length i xs s = .ok u s' →
      (∃ ob, s.obj S.objs.length = some ob ∧ ob.ref = some S.heap.length) → Keep S s →
      Keep S s' ∧ (∃ ob, s'.obj S.objs.length = some ob ∧ ob.ref = some S.heap.length) := by
    rintro s s' i xs u hw ⟨ob, hob, hrf⟩ hk
    rcases writeRange_inv (o := S.objs.length) (i := i) (s := s) (xs := xs) with e | ⟨_, _, e⟩ | ⟨ob', q, Q, e1, e2, e3, _, e⟩
    · rw [e] at hw; cases hw
    · rw [e] at hw; cases hw; exact ⟨hk, ob, hob, hrf⟩
    · rw [e] at hw
      cases hw
      rw [hob] at e1
      cases e1
      rw [hrf] at e2
      cases e2
      exact ⟨⟨hk.1, fun b hb => (St.blk_setBlk_ne _ (by omega)).trans (hk.2 b hb)⟩, ob, hob, hrf⟩
  obtain ⟨u2, S2, h2, h⟩ := bind_inv h
  obtain ⟨l1, ob2, l2, l3⟩ := hwr _ _ _ _ _ h2 ⟨ob, k3, k4⟩ ⟨k1, k2⟩
  rw [Rca.bind_ok (Rca.getObj_eq l2)] at h
  obtain ⟨u3, S3, h3, h⟩ := bind_inv h
  cases h3
  obtain ⟨u4, S4, h4, h⟩ := bind_inv h
  cases h
  refine (hwr _ _ _ _ _ h4 ⟨_, St.obj_setObj_self _ (St.obj_lt l2), l3⟩ ⟨fun x hx => ?_, fun b hb => ?_⟩).1
  · rw [St.obj_setObj_ne _ (by omega)]; exact l1.1 x hx
  · rw [St.blk_setObj]; exact l1.2 b hb

/-! ## The whole of `split` -/

theorem rcount_eq {T : Type} {S : St T} {o b : Nat} {oo : Obj} {B : Block T} (ho : S.obj o = some oo) (hr : oo.ref = some b)
    (hb : S.blk b = some B) : Rca.rcount o S = .ok B.refs S := by
  unfold Rca.rcount
  rw [Rca.bind_ok (Rca.getObj_eq ho)]
  simp only [hr]
  rw [Rca.bind_ok (getBlk_some hb)]
  rfl

/-- `split` with assertions, on a string with storage. -/
theorem sim_split {L : Libc} {fuel o delim limit b : Nat} {oo : Obj} {B : Block UInt8} {w : World}
    (ho : w.strs.obj o = some oo) (hr : oo.sublen ≠ 0 → oo.ref = some b ∧ w.strs.blk b = some B ∧ 1 ≤ B.refs) :
    splitDebug c L fuel o delim limit w = split c L fuel o delim limit w := by
  have hlen : strs (Rca.length o) w = .ok oo.sublen w := by
    have : Rca.length o w.strs = .ok oo.sublen w.strs := by
      unfold Rca.length
      rw [Rca.bind_ok (Rca.getObj_eq ho)]
      rfl
    exact strs_ok this
  unfold splitDebug split
  rw [pbind_ok hlen, pbind_ok hlen]
  by_cases h0 : oo.sublen = 0
  · rw [if_pos h0, if_pos h0]
  rw [if_neg h0, if_neg h0]
  by_cases h1 : limit = 1
  · rw [if_pos h1, if_pos h1]
  rw [if_neg h1, if_neg h1]
  obtain ⟨hr, hb, hB⟩ := hr h0
  have hrc : strs (Rca.rcount o) w = .ok B.refs w := strs_ok (rcount_eq ho hr hb)
  rw [pbind_ok hrc]
  apply Sim.eq
  unfold withString
  refine Sim.bind (Q := fun x y w' => x = y ∧ w'.strs.obj o = some oo ∧ w'.strs.blk b = some B) (Sim.same fun t w' h => ?_) ?_
  · obtain ⟨S1, h2, rfl⟩ := strs_inv h
    have hk := charCtor_keep h2
    exact ⟨rfl, (hk.1 o (St.obj_lt ho)).trans ho, (hk.2 b (St.blk_lt hb)).trans hb⟩
  rintro t _ w1 ⟨rfl, ho1, hb1⟩
  refine Sim.bind (Q := fun x y _ => x = y) (Sim.onThrow ?_) ?_
  · unfold buildArray
    refine Sim.bind (Q := fun x y w' => x = y ∧ Mid o x b oo 0 B.refs w') (Sim.same fun a w' h => ?_) ?_
    · obtain ⟨A1, h2, rfl⟩ := arrs_inv h
      cases h2
      exact ⟨rfl, ⟨{}, obj_push_new _, rfl, rfl, Or.inl ⟨rfl, rfl⟩⟩, ho1, hr, hB, B, hb1, rfl⟩
    rintro a _ w2 ⟨rfl, hM⟩
    refine Sim.bind (Q := fun _ _ _ => True) (Sim.onThrow ?_) fun _ _ _ _ => Sim.ret rfl
    refine Sim.bind (sim_loop fuel 0 0 B.refs w2 hM) ?_
    rintro it ⟨it', r'⟩ w3 ⟨rfl, k', hM'⟩
    have hlast := sim_rest (c := c) (delim := delim) (limit := limit) (it := it') hM'
    unfold Sim at hlast ⊢
    cases hp : splitRest c o delim a limit it' w3 with
    | ub => rw [hp] at hlast; exact pbind_ub hlast
    | throw e w' => rw [hp] at hlast; exact pbind_throw hlast
    | ok u w' =>
      rw [hp] at hlast
      obtain ⟨r2, h3, k2, _, ho2, _, _, B2, hb2, hB2⟩ := hlast
      refine ⟨(), ?_, trivial⟩
      show (splitRestDebug c o delim a limit it' r' >>= _) w3 = _
      rw [pbind_ok h3, pbind_ok (strs_ok (rcount_eq ho2 hr hb2)), hB2]
      have : decide (r2 = r2) = true := decide_eq_true rfl
      rw [this]
      rfl
  rintro a _ w2 rfl
  exact Sim.bind (Q := fun _ _ _ => True) (Sim.same fun _ _ _ => trivial) fun _ _ _ _ => Sim.ret rfl

end Bdlib.Nest.Refs
