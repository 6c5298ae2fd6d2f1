import Verif.Props.C21
import Verif.Props.C28

/-!
# C28: `split` where the platform has no `memmem`

`find(d, pos)` then returns an index that counts from the beginning of the string (`c21_find_from_fallback`), and `split` takes it for a
distance from `pos`.
-/

namespace Bdlib.Str
open Bdlib Bdlib.Spec

/-- What is searched from `it` on: see `c21_find_from_fallback`. -/
def Seen (d v : Bytes) (it i : Nat) : Prop := it ≤ i ∧ OccursAt d v i ∧ it + i + d.length ≤ v.length

theorem find_fallback {L : Libc} (hL : L.Ok) (hm : L.memmem = false) {v d : Bytes} (hv : v.length ≤ maxInt) (hd : d ≠ []) {it : Nat}
    (hit : it ≤ v.length) : ∃ r, find_ L v d it = .ret r ∧ Finds Smallest (Seen d v it) npos r := by
  have hmx : v.length ≤ 2147483647 := hv
  obtain ⟨r, h1, h2⟩ := c21_find_from_fallback hL hm (v := v) (by unfold npos; omega) hd hit
  refine ⟨r, ?_, h2⟩
  rw [← h1]
  unfold findFrom
  by_cases h0 : it = 0
  · simp [h0]
  · simp only [h0, ne_eq, not_false_eq_true, if_true]
    unfold validate
    rw [if_neg (by omega)]
    rfl

section
variable {L : Libc} (hL : L.Ok) (hm : L.memmem = false) {v d : Bytes} (hv : v.length ≤ maxInt)
include hL hm hv

theorem splitLoop_fallback (hd : d ≠ []) (hsp : d ≠ [32]) : ∀ fuel it acc, it ≤ v.length → v.length - it < fuel → acc.length ≤ it →
    ∃ it' ps, splitLoop L v d (npos - 1) fuel it acc = .ret (it', acc ++ ps) ∧ Chopped d.length (v.drop it) ps ∧
      (it < v.length → (∀ i, ¬ Seen d v it i) → ps = [v.drop it]) ∧
      ∀ i, it < v.length → Smallest (Seen d v it) i →
        ∃ qs, ps = (v.drop it).take i :: qs ∧ (it + i + d.length = v.length → qs = []) ∧
          (it + i + d.length < v.length → (∀ j, ¬ Seen d v (it + i + d.length) j) → qs = [v.drop (it + i + d.length)]) := by
  intro fuel
  induction fuel with
  | zero => intro it acc _ h; omega
  | succ fuel ih =>
    intro it acc hit hf hacc
    have hmx : v.length ≤ 2147483647 := hv
    have hdl : d.length ≠ 0 := fun h => hd (List.length_eq_zero_iff.mp h)
    have htrim : ∀ it, trimIt v d it = it := fun it => by unfold trimIt; rw [if_neg hsp]
    unfold splitLoop
    rw [if_neg (by unfold npos; omega)]
    simp only [htrim]
    by_cases hend : it ≥ v.length
    · rw [if_pos hend]
      exact ⟨it, [], by simp, by rw [List.drop_eq_nil_of_le hend]; exact .nil, fun h => by omega, fun _ h => by omega⟩
    · rw [if_neg hend]
      obtain ⟨r, h1, h2⟩ := find_fallback hL hm hv hd hit
      rw [h1]
      simp only [Eff.ret_bind]
      rcases h2 with ⟨h2, h3⟩ | ⟨h2, h3⟩
      · rw [if_neg h3]
        have hle := h2.1.2.2
        rw [slice_in hv (by omega)]
        simp only [Eff.ret_bind]
        obtain ⟨it', ps, h4, h5, h6, h7⟩ := ih (it + r + d.length) (acc ++ [(v.drop it).take r]) (by omega) (by omega) (by simp; omega)
        refine ⟨it', (v.drop it).take r :: ps, by rw [h4]; simp, ?_, fun _ h => absurd h2.1 (h r), fun i _ hi => ?_⟩
        · have e : v.drop it = (v.drop it).take r ++ ((v.drop it).drop r).take d.length ++ v.drop (it + r + d.length) := by
            rw [show v.drop (it + r + d.length) = ((v.drop it).drop r).drop d.length by simp [List.drop_drop, Nat.add_assoc],
              List.append_assoc, List.take_append_drop, List.take_append_drop]
          rw [e, List.take_append_of_le_length (by simp; omega), List.take_append_of_le_length (by simp; omega),
            List.take_take, Nat.min_self]
          exact .cons (by simp; omega) h5
        · have : i = r := Nat.le_antisymm (hi.2 r h2.1) (h2.2 i hi.1)
          subst this
          refine ⟨ps, rfl, fun h => ?_, h6⟩
          rw [h, List.drop_length] at h5
          cases fuel with
          | zero => omega
          | succ fuel =>
            unfold splitLoop at h4
            rw [if_neg (by unfold npos; simp; omega)] at h4
            simp only [htrim] at h4
            rw [if_pos (by omega)] at h4
            injection h4 with h4
            have := (Prod.mk.inj h4).2
            exact (List.append_cancel_left ((List.append_nil _).trans this)).symm
      · subst h3
        rw [if_pos rfl, slice_in hv (by omega)]
        simp only [Eff.ret_bind]
        have htake : (v.drop it).take (v.length - it) = v.drop it := List.take_of_length_le (by simp)
        have hne : v.drop it ≠ [] := fun h => by
          have := congrArg List.length h
          simp only [List.length_drop, List.length_nil] at this
          omega
        rw [htake]
        refine ⟨it + (v.length - it) + d.length, [v.drop it], ?_, .last hne, fun _ _ => rfl, fun i _ hi => absurd hi.1 (h2 i)⟩
        cases fuel with
        | zero => omega
        | succ fuel =>
          unfold splitLoop
          rw [if_neg (by unfold npos; simp; omega)]
          simp only [htrim]
          rw [if_pos (by omega)]

/-- `split(d)` without `memmem`: it terminates, is defined, and cuts off the right first piece; but what it takes out between two pieces may be any
text as long as the delimiter (`c28_refuted_lost`), and the pieces may contain the delimiter (`c28_refuted_memmem`). -/
theorem c28_fallback (hd : d ≠ []) (hsp : d ≠ [32]) : ∀ fuel, v.length < fuel →
    ∃ ps, split L fuel v d npos = .ret ps ∧ Chopped d.length v ps ∧
      (v ≠ [] → ¬ Occurs d v → ps = [v]) ∧ ∀ p rest, FirstAt d v p rest → ps.head? = some p := by
  intro fuel hf
  unfold split
  by_cases h0 : v.length = 0
  · rw [if_pos h0, List.length_eq_zero_iff.mp h0]
    exact ⟨[], rfl, .nil, fun h => absurd rfl h, fun p rest h => (firstAt_nil hd h).elim⟩
  rw [if_neg h0, if_neg (by decide), cap_npos]
  obtain ⟨it', ps, h1, h2, h3, h4⟩ := splitLoop_fallback hL hm hv hd hsp fuel 0 [] (Nat.zero_le _) (by omega) (Nat.le_refl _)
  rw [h1]
  simp only [Eff.ret_bind, List.nil_append]
  rw [if_neg (by simp)]
  rw [List.drop_zero] at h2 h3
  refine ⟨ps, rfl, h2, fun _ ho => h3 (by omega) fun i hi => ho ⟨i, hi.2.1⟩, fun p rest hp => ?_⟩
  have hlen := congrArg List.length hp.1
  simp only [List.length_append] at hlen
  obtain ⟨qs, hq, -⟩ := h4 p.length (by omega) ⟨⟨Nat.zero_le _, ⟨p, rest, hp.1, rfl⟩, by omega⟩, fun j hj => hp.2 j hj.2.1⟩
  rw [hq, List.head?_cons, List.drop_zero]
  congr 1
  conv => lhs; rw [hp.1]
  simp

/-- Where the delimiter occurs once, the pieces are the right ones. -/
theorem c28_fallback_once (hd : d ≠ []) (hsp : d ≠ [32]) {p rest : Bytes} (hp : FirstAt d v p rest) (hr : ¬ Occurs d rest) :
    ∀ fuel, v.length < fuel → split L fuel v d npos = .ret (if rest = [] then [p] else [p, rest]) := by
  intro fuel hf
  have hlen := congrArg List.length hp.1
  simp only [List.length_append] at hlen
  have hdl : d.length ≠ 0 := fun h => hd (List.length_eq_zero_iff.mp h)
  unfold split
  rw [if_neg (by omega), if_neg (by decide), cap_npos]
  obtain ⟨it', ps, h1, h2, h3, h4⟩ := splitLoop_fallback hL hm hv hd hsp fuel 0 [] (Nat.zero_le _) (by omega) (Nat.le_refl _)
  rw [h1]
  simp only [Eff.ret_bind, List.nil_append]
  rw [if_neg (by simp)]
  obtain ⟨qs, hq, h5, h6⟩ := h4 p.length (by omega) ⟨⟨Nat.zero_le _, ⟨p, rest, hp.1, rfl⟩, by omega⟩, fun j hj => hp.2 j hj.2.1⟩
  have e1 : (v.drop 0).take p.length = p := by
    rw [List.drop_zero]
    conv => lhs; rw [hp.1]
    simp
  have e2 : v.drop (0 + p.length + d.length) = rest := by rw [Nat.zero_add]; exact (firstAt_drop hp).symm
  rw [e1] at hq
  rw [e2] at h6
  subst hq
  by_cases he : rest = []
  · rw [if_pos he, h5 (by rw [he] at hlen; simp at hlen; omega)]
    rfl
  · have hl : rest.length ≠ 0 := fun h => he (List.length_eq_zero_iff.mp h)
    rw [if_neg he, h6 (by omega) fun j hj => hr ?_]
    · rfl
    · obtain ⟨g1, g2, -⟩ := hj
      refine ⟨j - (0 + p.length + d.length), ?_⟩
      have := (occursAt_drop (w := d) (v := v) (pos := 0 + p.length + d.length) (i := j - (0 + p.length + d.length)) (by omega)).mpr
        (by rw [Nat.add_sub_cancel' g1]; exact g2)
      rw [e2] at this
      exact this

end

/-- Without `memmem`, `String("a,b,cdef").split(",")` is `{"a", "b,c", "ef"}`: the `d` is lost. -/
theorem c28_refuted_lost : split noMemmem 9 [97, 44, 98, 44, 99, 100, 101, 102] [44] npos = .ret [[97], [98, 44, 99], [101, 102]] := by decide

example : Chopped 1 [97, 44, 98, 44, 99, 100, 101, 102] [[97], [98, 44, 99], [101, 102]] :=
  .cons (p := [97]) (s := [44]) rfl (.cons (p := [98, 44, 99]) (s := [100]) rfl (.last (by decide)))
example : split noMemmem 9 [97, 98, 44, 99] [44] npos = .ret [[97, 98], [99]] := by decide

end Bdlib.Str
