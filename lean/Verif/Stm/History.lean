import Verif.Stm.Lemmas

/-!
# Streams refine tapes
-/

namespace Bdlib.Stm
open Bdlib Bdlib.Str Bdlib.Spec

/-- The code behind each call; `cap` is the capacity afterwards of calls that change the String. -/
def apply (s : Stream) (cap : Nat) : TapeOp → Eff (TapeOut × Stream)
  | .puts x => do return (.unit, ← puts s x cap)
  | .read n => do let (x, s) ← read s n 0; return (.bytes x, s)
  | .readTo n d => do let (x, s) ← read s n d; return (.bytes x, s)
  | .getline => do let (x, s) ← getline s none; return (.bytes x, s)
  | .seek p => let (r, s) := seek s p .set; .ret (.num r.toNat, s)
  | .skip k => let (r, s) := seek s k .cur; .ret (.num r.toNat, s)
  | .truncate => do return (.unit, ← truncate s cap)
  | .clear => .ret (.unit, clear s cap)
  | .peek => do return (.bytes (← peek s), s)
  | .tell => .ret (.num s.pos, s)
  | .length => .ret (.num s.str.length, s)

/-- A seek may not go behind the end of the contents, a delimiter is not NUL, and a write may not make them longer than 2^31 - 1 bytes. -/
def Allowed (t : Tape) : TapeOp → Prop
  | .puts x => t.pos + x.length ≤ maxInt
  | .seek p => p ≤ t.content.length
  | .skip k => -2147483648 ≤ k ∧ (t.pos : Int) + k ≤ t.content.length
  | .readTo _ d => d ≠ 0
  | _ => True

/-- `s` is the stream `t`. -/
structure Is (s : Stream) (t : Tape) : Prop where
  content : s.str = t.content
  pos : s.pos = t.pos
  /-- no file is being loaded (`Stream.h` 53) -/
  idle : s.loading = false
  inside : Inside s

theorem seek_set {s : Stream} (h : Inside s) {p : Nat} (hp : p ≤ s.str.length) : seek s p .set = ((p : Int), { s with pos := p }) := by
  have h1 := h.cap
  have h2 := h.max
  unfold maxInt at h2
  unfold seek newpos clampPos
  dsimp only
  rw [if_neg (by omega), if_neg (by omega)]
  congr 2
  unfold two64
  omega

theorem seek_skip {s : Stream} (h : Inside s) {k : Int} (hk : -2147483648 ≤ k) (hp : (s.pos : Int) + k ≤ s.str.length) :
    seek s k .cur = (((s.pos + k).toNat : Int), { s with pos := (s.pos + k).toNat }) := by
  have h1 := h.cap
  have h2 := h.max
  have h3 := h.pos
  unfold maxInt at h2
  have e : toInt (s.pos + k) = s.pos + k := by
    unfold toInt Rca.toInt32 two64
    dsimp only
    split <;> omega
  unfold seek newpos clampPos
  dsimp only
  rw [e]
  by_cases h0 : (s.pos : Int) + k < 0
  · rw [if_pos h0]
    have : ((s.pos : Int) + k).toNat = 0 := by omega
    rw [this]
    rfl
  · rw [if_neg h0, if_neg (by omega)]
    have a : (((s.pos : Int) + k).toNat : Int) = s.pos + k := by omega
    rw [a]
    congr 2
    unfold two64
    omega

theorem until_piece (d : UInt8) : ∀ (n : Nat) (rest : Bytes), upTo rest n d = firstPiece d n rest
  | n, [] => by simp [upTo, firstPiece]
  | 0, c :: r => by
    unfold firstPiece
    by_cases hc : c = d <;> simp [upTo, hc]
  | n + 1, c :: r => by
    have ih := until_piece d n r
    unfold firstPiece
    by_cases hc : c = d
    · simp [upTo, hc]
    · rw [if_neg hc, ← ih]
      have e : ((c :: r).take (n + 1)).takeWhile (· ≠ d) = c :: (r.take n).takeWhile (· ≠ d) := by
        rw [List.take_succ_cons, List.takeWhile_cons_of_pos (by simpa using hc)]
      unfold upTo
      dsimp only
      generalize ((c :: r).take (n + 1)).takeWhile (· ≠ d) = p at *
      subst e
      simp only [List.length_cons, List.getElem?_cons_succ]
      split <;> rfl

theorem firstPiece_le (d : UInt8) : ∀ (n : Nat) (l : Bytes), (firstPiece d n l).length ≤ l.length
  | n, [] => by simp [firstPiece]
  | 0, c :: r => by unfold firstPiece; split <;> simp
  | n + 1, c :: r => by
    have := firstPiece_le d n r
    unfold firstPiece
    split <;> simp
    exact this

/-- Every allowed call does to the stream what the specification does to the tape, and returns the same. -/
theorem step {s : Stream} {t : Tape} (h : Is s t) {op : TapeOp} (ha : Allowed t op) {cap : Nat}
    (hcap : (t.step op).2.content.length ≤ cap) :
    ∃ s', apply s cap op = .ret ((t.step op).1, s') ∧ Is s' (t.step op).2 := by
  obtain ⟨str, scap, pos, loading⟩ := s
  obtain ⟨content, tpos⟩ := t
  obtain ⟨hc, hp, hld, hi⟩ := h
  dsimp only at hc hp hld
  subst hc hp
  have h1 := hi.pos
  have h2 := hi.cap
  have h3 := hi.max
  dsimp only at h1 h2 h3
  cases op with
  | puts x =>
    simp only [Allowed] at ha
    simp only [Tape.step] at hcap ⊢
    refine ⟨_, by simp only [apply, puts]; rw [replace_ok h1]; rfl, rfl, rfl, hld, ?_, ?_, ?_⟩
    · simp; omega
    · exact hcap
    · simp
      omega
  | read n =>
    refine ⟨_, by simp only [apply]; rw [read_plain hi]; rfl, rfl, rfl, hld, ?_, h2, h3⟩
    simp only
    omega
  | getline =>
    refine ⟨_, by simp only [apply]; rw [getline_line hi]; rfl, rfl, rfl, hld, ?_, h2, h3⟩
    have := firstLine_le (str.drop pos)
    simp only [List.length_drop] at this ⊢
    omega
  | readTo n d =>
    have := firstPiece_le d n (str.drop pos)
    simp only [List.length_drop] at this
    refine ⟨_, by simp only [apply]; rw [read_delim hi n ha, until_piece]; rfl, rfl, rfl, hld, ?_, h2, h3⟩
    simp only
    omega
  | skip k =>
    obtain ⟨ha1, ha2⟩ := ha
    dsimp only at ha2
    simp only [Tape.step, Nat.min_eq_left (show ((pos : Int) + k).toNat ≤ str.length by omega)] at hcap ⊢
    refine ⟨_, by simp only [apply]; rw [seek_skip hi ha1 ha2]; rfl, rfl, rfl, hld, ?_, h2, h3⟩
    simp only
    omega
  | seek p =>
    simp only [Allowed] at ha
    simp only [Tape.step, Nat.min_eq_left ha] at hcap ⊢
    refine ⟨_, by simp only [apply]; rw [seek_set hi ha]; rfl, rfl, rfl, hld, ha, h2, h3⟩
  | truncate =>
    simp only [Tape.step] at hcap ⊢
    refine ⟨⟨str.take pos, cap, pos, loading⟩, ?_, rfl, rfl, hld, ?_, hcap, ?_⟩
    · simp only [apply, truncate]
      rw [toSsize_small (by omega)]
      have := slice_in (i := 0) (k := pos) h3 (by omega)
      simp only [Int.ofNat_zero, List.drop_zero] at this
      erw [this]
      rfl
    · simp; omega
    · simp; omega
  | clear =>
    simp only [Tape.step] at hcap ⊢
    exact ⟨_, rfl, rfl, rfl, hld, Nat.le_refl _, hcap, Nat.zero_le _⟩
  | peek =>
    refine ⟨_, by simp only [apply, peek]; rw [toSsize_small (by omega), slice_rest h3]; rfl, rfl, rfl, hld, hi⟩
  | tell => exact ⟨_, rfl, rfl, rfl, hld, hi⟩
  | length => exact ⟨_, rfl, rfl, rfl, hld, hi⟩

/-- Streams that a program using only allowed calls can have, with the tapes they represent. -/
inductive Run : Stream → Tape → Prop
  | fresh (cap : Nat) : Run (empty cap) ⟨[], 0⟩
  | start (v : Bytes) (cap : Nat) : v.length ≤ cap → v.length ≤ maxInt → Run (ofString v cap) ⟨v, 0⟩
  | step {s s' t op cap out} : Run s t → Allowed t op → (t.step op).2.content.length ≤ cap →
      apply s cap op = .ret (out, s') → Run s' (t.step op).2

theorem Run.is {s : Stream} {t : Tape} (h : Run s t) : Is s t := by
  induction h with
  | fresh cap => exact ⟨rfl, rfl, rfl, Nat.zero_le _, Nat.zero_le _, Nat.zero_le _⟩
  | start v cap h1 h2 => exact ⟨rfl, rfl, rfl, Nat.zero_le _, h1, h2⟩
  | step _ ha hcap he ih =>
    obtain ⟨s1, e1, e2⟩ := Stm.step ih ha hcap
    rw [e1] at he
    cases he
    exact e2

end Bdlib.Stm
