import Verif.Conc.SameInv

/-! # `c_str()` by one thread alone prepares an object for being shared -/

namespace Bdlib.Same
open Bdlib

variable {hasher : UInt8 → UInt64} {s₀ s : Sys} {v : List UInt8}

/-- Run steps; `none` if one of them is not possible. -/
def exec (hasher : UInt8 → UInt64) (s : Sys) : List (Nat × Act) → Option Sys
  | [] => some s
  | (t, act) :: l =>
    match step hasher s t act with
    | .ok s' _ => exec hasher s' l
    | _ => none

/-- `n` steps of thread `t`. -/
def steps (t n : Nat) : List (Nat × Act) := List.replicate n (t, .go)

/-- `s` with other members, memory and place of thread `t`. -/
def mk (s : Sys) (t : Nat) (m : Obj) (h : Nat → Option Blk) (nx : Nat) (p : Pc) : Sys :=
  ⟨m, h, nx, s.others, fun u => if u = t then p else s.pc u⟩

theorem mk_mk (s : Sys) (t : Nat) (m m' : Obj) (h h' : Nat → Option Blk) (nx nx' : Nat) (p p' : Pc) :
    (⟨m', h', nx', (mk s t m h nx p).others, fun u => if u = t then p' else (mk s t m h nx p).pc u⟩ : Sys) = mk s t m' h' nx' p' := by
  simp only [mk, Sys.mk.injEq, true_and]
  funext u
  by_cases hu : u = t <;> simp [hu]

theorem exec_go {t n : Nat} {m m' : Obj} {h h' : Nat → Option Blk} {nx nx' : Nat} {p p' : Pc} {seen : Option Seen}
    (e : go hasher (mk s t m h nx p) t = .ok (mk s t m' h' nx' p') seen) :
    exec hasher (mk s t m h nx p) (steps t (n + 1)) = exec hasher (mk s t m' h' nx' p') (steps t n) := by
  simp only [steps, List.replicate_succ, exec, step, e]

section
variable {t : Nat} {m : Obj} {h : Nat → Option Blk} {nx : Nat}

theorem go_cLen (h0 : m.len ≠ 0) : go hasher (mk s t m h nx .cLen) t = .ok (mk s t m h nx .cByte) none := by
  have := mk_mk s t m m h h nx nx .cLen .cByte
  simp only [go, mk, if_true, h0, if_false] at this ⊢
  rw [this]

theorem go_cLen0 (h0 : m.len = 0) : go hasher (mk s t m h nx .cLen) t = .ok (mk s t m h nx .idle) (some (.cStr [0])) := by
  have := mk_mk s t m m h h nx nx .cLen .idle
  simp only [go, mk, if_true, h0] at this ⊢
  rw [this]

theorem go_cByte {x : UInt8} (hx : byteAt h m m.len = some x) :
    go hasher (mk s t m h nx .cByte) t = .ok (mk s t m h nx (if x = 0 then .cRet else .cHash)) none := by
  have := mk_mk s t m m h h nx nx .cByte (if x = 0 then .cRet else .cHash)
  simp only [go, mk, if_true, hx] at this ⊢
  rw [this]

theorem go_cHash : go hasher (mk s t m h nx .cHash) t = .ok (mk s t { m with hash := 0 } h nx (.cShared (m.len + 1))) none := by
  have := mk_mk s t m { m with hash := 0 } h h nx nx .cHash (.cShared (m.len + 1))
  simp only [go, mk, if_true] at this ⊢
  rw [this]

theorem go_cShared {n a : Nat} {b : Blk} (hr : m.ref = some a) (hb : h a = some b) :
    go hasher (mk s t m h nx (.cShared n)) t = .ok (mk s t m h nx (if b.refs > 1 then .cOld n else .cGrow n)) none := by
  have := mk_mk s t m m h h nx nx (.cShared n) (if b.refs > 1 then .cOld n else .cGrow n)
  simp only [go, mk, if_true, hr, hb] at this ⊢
  rw [this]

theorem go_cOld {n : Nat} : go hasher (mk s t m h nx (.cOld n)) t = .ok (mk s t m h nx (.cDec n m)) none := by
  have := mk_mk s t m m h h nx nx (.cOld n) (.cDec n m)
  simp only [go, mk, if_true] at this ⊢
  rw [this]

theorem go_cDec {n : Nat} {old : Obj} {h' : Nat → Option Blk} (e : addRef h m (-1) = some h') :
    go hasher (mk s t m h nx (.cDec n old)) t = .ok (mk s t m h' nx (.cNull n old)) none := by
  have := mk_mk s t m m h h' nx nx (.cDec n old) (.cNull n old)
  simp only [go, mk, if_true, e] at this ⊢
  rw [this]

theorem go_cNull {n : Nat} {old : Obj} :
    go hasher (mk s t m h nx (.cNull n old)) t = .ok (mk s t ⟨none, 0, 0, 0⟩ h nx (.cAlloc n old)) none := by
  have := mk_mk s t m ⟨none, 0, 0, 0⟩ h h nx nx (.cNull n old) (.cAlloc n old)
  simp only [go, mk, if_true] at this ⊢
  rw [this]

theorem go_cAlloc {n : Nat} {old : Obj} (hr : m.ref = none) :
    go hasher (mk s t m h nx (.cAlloc n old)) t =
      .ok (mk s t { m with ref := some nx } (fun x => if x = nx then some ⟨1, List.replicate n 0⟩ else h x) (nx + 1) (.cFill n old)) none := by
  have := mk_mk s t m { m with ref := some nx } h (fun x => if x = nx then some ⟨1, List.replicate n 0⟩ else h x) nx (nx + 1)
    (.cAlloc n old) (.cFill n old)
  simp only [go, mk, if_true, hr] at this ⊢
  exact congrArg (Out.ok · none) this

theorem go_cFill {n a : Nat} {old : Obj} {w : List UInt8} {b : Blk} (hv : value h { old with len := min old.len n } = some w)
    (hr : m.ref = some a) (hb : h a = some b) (hl : m.off + min old.len n ≤ b.data.length) :
    go hasher (mk s t m h nx (.cFill n old)) t =
      .ok (mk s t { m with len := min old.len n }
        (fun x => if x = a then some { b with data := b.data.take m.off ++ w ++ b.data.drop (m.off + min old.len n) } else h x)
        nx .cTerm) none := by
  have := mk_mk s t m { m with len := min old.len n } h
    (fun x => if x = a then some { b with data := b.data.take m.off ++ w ++ b.data.drop (m.off + min old.len n) } else h x) nx nx
    (.cFill n old) .cTerm
  simp only [go, mk, if_true, hv, hr, hb, hl] at this ⊢
  rw [this]

theorem go_cGrowIn {n a : Nat} {b : Blk} (hr : m.ref = some a) (hb : h a = some b) (hl : m.off + n ≤ b.data.length) :
    go hasher (mk s t m h nx (.cGrow n)) t = .ok (mk s t m h nx .cTerm) none := by
  have := mk_mk s t m m h h nx nx (.cGrow n) .cTerm
  simp only [go, mk, if_true, hr, hb, hl] at this ⊢
  rw [this]

theorem go_cTerm {a : Nat} {b : Blk} (hr : m.ref = some a) (hb : h a = some b) (hl : m.off + m.len < b.data.length) :
    go hasher (mk s t m h nx .cTerm) t =
      .ok (mk s t m (fun x => if x = a then some { b with data := b.data.set (m.off + m.len) 0 } else h x) nx .cRet) none := by
  have := mk_mk s t m m h (fun x => if x = a then some { b with data := b.data.set (m.off + m.len) 0 } else h x) nx nx .cTerm .cRet
  simp only [go, mk, if_true, hr, hb, hl] at this ⊢
  rw [this]

theorem go_cRet {d bs : List UInt8} (hb : buf h m = some d) (hc : cBytes (d.drop m.off) = some bs) :
    go hasher (mk s t m h nx .cRet) t = .ok (mk s t m h nx .idle) (some (.cStr bs)) := by
  have := mk_mk s t m m h h nx nx .cRet .idle
  simp only [go, mk, if_true, hb, hc] at this ⊢
  rw [this]

end

/-- A window followed by a NUL. -/
theorem drop_of_term {d : List UInt8} {o n : Nat} (hv : (d.drop o).take n = v) (hn : v.length = n) (h0 : d[o + n]? = some 0) :
    cBytes (d.drop o) = some (v.takeWhile (· ≠ 0) ++ [0]) := by
  obtain ⟨hlt, hz⟩ := List.getElem?_eq_some_iff.1 h0
  have h2 : n < (d.drop o).length := by simp only [List.length_drop]; omega
  have h3 : (d.drop o)[n] = 0 := by rw [List.getElem_drop]; exact hz
  have : d.drop o = v ++ 0 :: (d.drop o).drop (n + 1) := by
    rw [← h3, ← List.drop_eq_getElem_cons h2, ← hv, List.take_append_drop]
  rw [this, cBytes_append]

/-- After a call. -/
theorem mk_start {t : Nat} {m : Obj} {h : Nat → Option Blk} {nx : Nat} (st : Start hasher s₀ v)
    (hm : value h m = some v) (hh : m.hash = 0 ∨ m.hash = H hasher v)
    (hc : ∀ o ∈ m :: s₀.others, ∀ a, o.ref = some a → ∃ b, h a = some b ∧ b.refs = ((m :: s₀.others).countP fun o => o.ref = some a))
    (ho : ∀ o ∈ s₀.others, value h o = value s₀.heap o) :
    Start hasher (mk s₀ t m h nx .idle) v := by
  refine ⟨fun u => ?_, hm, hh, hc, fun o hmem => ?_⟩
  · simp only [mk]; split
    · rfl
    · exact st.idle u
  · simp only [mk]; rw [ho o hmem]; exact st.others o hmem

theorem value_buf {h : Nat → Option Blk} {o : Obj} {d : List UInt8} (h0 : o.len ≠ 0) (hb : buf h o = some d) :
    value h o = some v ↔ o.off + o.len ≤ d.length ∧ (d.drop o.off).take o.len = v := by
  simp only [value, h0, if_false, hb, Option.bind_some]
  split
  · rename_i hle
    simp [hle]
  · rename_i hle
    simp [hle]

/-- `c_str()` by one thread while the others do nothing: afterwards there is a NUL behind the value, which is the
same, and the other objects have their values. -/
theorem cStr_alone (st : Start hasher s₀ v) (hbyte : s₀.main.len = 0 ∨ (byteAt s₀.heap s₀.main s₀.main.len).isSome)
    (hfresh : s₀.heap s₀.next = none) (t : Nat) :
    ∃ n s' s'' , exec hasher s₀ ((t, .call .cStr) :: steps t n) = some s' ∧
      step hasher s' t .go = .ok s'' (some (.cStr (v.takeWhile (· ≠ 0) ++ [0]))) ∧
      Start hasher s'' v ∧ Terminated s'' ∧ s''.others = s₀.others ∧ ∀ o ∈ s₀.others, value s''.heap o = value s₀.heap o := by
  have hidle := st.idle t
  have hstart : ∀ n, exec hasher s₀ ((t, .call .cStr) :: steps t n) = exec hasher (mk s₀ t s₀.main s₀.heap s₀.next .cLen) (steps t n) := by
    intro n
    simp only [exec, step, hidle, if_true, Call.pc]; rfl
  have hv := val_of st.main
  by_cases h0 : s₀.main.len = 0
  · -- the empty string
    have hnil : v = [] := List.length_eq_zero_iff.1 (by rw [← hv.len]; exact h0)
    refine ⟨0, _, mk s₀ t s₀.main s₀.heap s₀.next .idle, hstart 0, ?_, mk_start st st.main st.hash st.count (fun _ _ => rfl),
      .inl h0, rfl, fun _ _ => rfl⟩
    simp only [step, go_cLen0 h0, hnil]
    rfl
  obtain ⟨x, hx⟩ := Option.isSome_iff_exists.1 (hbyte.resolve_left h0)
  have hlen := hv.len
  cases hd : buf s₀.heap s₀.main with
  | none => simp [byteAt, hd] at hx
  | some d =>
  have hwin := (value_buf h0 hd).1 st.main
  have hxd : d[s₀.main.off + s₀.main.len]? = some x := by simpa [byteAt, hd] using hx
  obtain ⟨hlt, hxe⟩ := List.getElem?_eq_some_iff.1 hxd
  by_cases hx0 : x = 0
  · -- there is a NUL
    subst hx0
    refine ⟨2, mk s₀ t s₀.main s₀.heap s₀.next .cRet, mk s₀ t s₀.main s₀.heap s₀.next .idle, ?_, ?_,
      mk_start st st.main st.hash st.count (fun _ _ => rfl), .inr hx, rfl, fun _ _ => rfl⟩
    · rw [hstart, exec_go (go_cLen h0), exec_go (go_cByte hx)]; rfl
    · simp only [step]
      exact go_cRet hd (drop_of_term hwin.2 hlen.symm hxd)
  cases hr : s₀.main.ref with
  | none => simp [buf, hr] at hd
  | some a =>
  obtain ⟨b, hb, hbc⟩ := st.count s₀.main (List.mem_cons_self ..) a hr
  have hbd : b.data = d := by simpa [buf, hr, hb] using hd
  subst hbd
  have h0' : ({ s₀.main with hash := 0 } : Obj).len ≠ 0 := h0
  by_cases hs : b.refs > 1
  · -- shared: a buffer of its own
    have hna : a ≠ s₀.next := fun e => by rw [e, hfresh] at hb; cases hb
    let m1 : Obj := { s₀.main with hash := 0 }
    let n := s₀.main.len + 1
    let h1 : Nat → Option Blk := fun y => if y = a then some { b with refs := b.refs + -1 } else s₀.heap y
    let h2 : Nat → Option Blk := fun y => if y = s₀.next then some ⟨1, List.replicate n 0⟩ else h1 y
    have e1 : addRef s₀.heap m1 (-1) = some h1 := by simp only [addRef, m1, hr, hb, h1]
    have hmin : min m1.len n = s₀.main.len := by simp only [m1, n]; omega
    have hval2 : value h2 { m1 with len := min m1.len n } = some v := by
      rw [hmin]
      refine (value_buf h0 ?_).2 hwin
      simp only [buf, hr, h2, h1, Option.bind_some, hna, if_false, if_true, Option.map_some]
    let m2 : Obj := ⟨some s₀.next, 0, 0, 0⟩
    have hb2 : h2 s₀.next = some ⟨1, List.replicate n 0⟩ := by simp only [h2, if_true]
    have hl2 : m2.off + min m1.len n ≤ (List.replicate n (0 : UInt8)).length := by
      rw [hmin]; simp [m2, n]
    let m3 : Obj := { m2 with len := min m1.len n }
    let d3 : List UInt8 := (List.replicate n (0 : UInt8)).take m2.off ++ v ++ (List.replicate n (0 : UInt8)).drop (m2.off + min m1.len n)
    have hd3 : d3 = v ++ [0] := by
      simp only [d3, hmin, m2, n, List.take_zero, List.nil_append, Nat.zero_add, List.drop_replicate]
      have : s₀.main.len + 1 - s₀.main.len = 1 := by omega
      rw [this]; rfl
    let h3 : Nat → Option Blk := fun y => if y = s₀.next then some ⟨1, d3⟩ else h2 y
    have hb3 : h3 s₀.next = some ⟨1, d3⟩ := by simp only [h3, if_true]
    have hl3 : m3.off + m3.len < d3.length := by
      simp only [m3, m2, hmin, hd3, List.length_append, List.length_singleton]; omega
    let h4 : Nat → Option Blk := fun y => if y = s₀.next then some ⟨1, d3.set (m3.off + m3.len) 0⟩ else h3 y
    have hd4 : d3.set (m3.off + m3.len) 0 = v ++ [0] := by
      rw [hd3]
      simp only [m3, m2, hmin, Nat.zero_add, hlen]
      rw [List.set_append_right _ _ (Nat.le_refl _), Nat.sub_self]; rfl
    have hbuf4 : buf h4 m3 = some (v ++ [0]) := by
      simp only [buf, m3, m2, h4, Option.bind_some, if_true, Option.map_some, hd4]
    have hoth : ∀ y, h4 y = if y = s₀.next then some ⟨1, v ++ [0]⟩ else h1 y := by
      intro y
      simp only [h4, h3, h2]
      by_cases hy : y = s₀.next
      · simp only [hy, if_true, hd4]
      · simp only [hy, if_false]
    have hvo : ∀ o ∈ s₀.others, value h4 o = value s₀.heap o := by
      intro o ho
      refine value_congr ?_
      unfold buf
      cases hor : o.ref with
      | none => rfl
      | some c =>
        obtain ⟨bc, hbc, _⟩ := st.count o (List.mem_cons_of_mem _ ho) c hor
        have hcn : c ≠ s₀.next := fun e => by rw [e, hfresh] at hbc; cases hbc
        simp only [Option.bind_some, hoth, hcn, if_false, h1]
        by_cases hca : c = a
        · subst hca; rw [hb] ; simp
        · simp only [hca, if_false]
    refine ⟨10, mk s₀ t m3 h4 (s₀.next + 1) .cRet, mk s₀ t m3 h4 (s₀.next + 1) .idle, ?_, ?_, mk_start st ?_ (.inl rfl) ?_ hvo, ?_, rfl, hvo⟩
    · have gB := go_cByte (hasher := hasher) (s := s₀) (t := t) (nx := s₀.next) hx
      rw [if_neg hx0] at gB
      have gS := go_cShared (hasher := hasher) (s := s₀) (t := t) (nx := s₀.next) (m := m1) (n := n) hr hb
      rw [if_pos hs] at gS
      exact (hstart 10).trans <| (exec_go (go_cLen h0)).trans <| (exec_go gB).trans <| (exec_go go_cHash).trans <|
        (exec_go gS).trans <| (exec_go go_cOld).trans <| (exec_go (go_cDec e1)).trans <| (exec_go go_cNull).trans <|
        (exec_go (go_cAlloc rfl)).trans <| (exec_go (go_cFill hval2 rfl hb2 hl2)).trans <| exec_go (go_cTerm rfl hb3 hl3)
    · simp only [step]
      refine go_cRet hbuf4 ?_
      simp only [m3, m2, List.drop_zero]
      exact cBytes_append v []
    · refine (value_buf (by rw [show m3.len = s₀.main.len from hmin]; exact h0) hbuf4).2 ?_
      simp only [m3, m2, hmin, List.drop_zero, List.length_append, hlen, Nat.zero_add]
      exact ⟨by omega, List.take_left⟩
    · intro o ho c hoc
      have hmain : s₀.main.ref = some a := hr
      rcases List.mem_cons.1 ho with rfl | ho
      · simp only [m3, m2, Option.some.injEq] at hoc
        subst hoc
        refine ⟨⟨1, v ++ [0]⟩, by rw [hoth, if_pos rfl], ?_⟩
        have hz : s₀.others.countP (fun o => decide (o.ref = some s₀.next)) = 0 := by
          rw [List.countP_eq_zero]
          intro o ho hh
          obtain ⟨bc, hbc, _⟩ := st.count o (List.mem_cons_of_mem _ ho) s₀.next (by simpa using hh)
          rw [hfresh] at hbc; cases hbc
        rw [List.countP_cons, hz]
        simp [m3, m2]
      · obtain ⟨bc, hbc', hbcc⟩ := st.count o (List.mem_cons_of_mem _ ho) c hoc
        have hcn : c ≠ s₀.next := fun e => by rw [e, hfresh] at hbc'; cases hbc'
        rw [hoth, if_neg hcn]
        have hm3 : ¬ (some s₀.next = some c) := fun e => hcn (by cases e; rfl)
        have hu : (m3 :: s₀.others).countP (fun o => decide (o.ref = some c)) = s₀.others.countP (fun o => decide (o.ref = some c)) := by
          rw [List.countP_cons]; simp [m3, m2, hm3]
        rw [hu]
        simp only [users, List.countP_cons] at hbcc hbc
        by_cases hca : c = a
        · subst hca
          refine ⟨{ b with refs := b.refs + -1 }, if_pos rfl, ?_⟩
          simp only [hmain, decide_true, if_true] at hbc
          show b.refs + -1 = _
          omega
        · refine ⟨bc, by simp only [h1, hca, if_false]; exact hbc', ?_⟩
          have : ¬ (some a = some c) := fun e => hca (by cases e; rfl)
          simp only [hmain, this, decide_false, Bool.false_eq_true, if_false, Nat.add_zero] at hbcc
          exact hbcc
    · refine .inr ?_
      show byteAt h4 m3 m3.len = some 0
      have e3 : m3.off + m3.len = v.length := by simp only [m3, m2, hmin, Nat.zero_add, hlen]
      simp only [byteAt, hbuf4, Option.bind_some, e3]
      simp
  · -- not shared: the NUL goes into the buffer
    let m1 : Obj := { s₀.main with hash := 0 }
    have hl : m1.off + (s₀.main.len + 1) ≤ b.data.length := by simp only [m1]; omega
    have hl2 : m1.off + m1.len < b.data.length := hlt
    let d2 := b.data.set (m1.off + m1.len) 0
    let h2 : Nat → Option Blk := fun y => if y = a then some { b with data := d2 } else s₀.heap y
    have hbuf : buf h2 m1 = some d2 := by simp only [buf, m1, hr, h2, Option.bind_some, if_true, Option.map_some]
    have hw2 : (d2.drop m1.off).take m1.len = v := by
      rw [← hwin.2]
      apply List.ext_getElem?
      intro k
      simp only [d2, m1, List.getElem?_take, List.getElem?_drop]
      split
      · rw [List.getElem?_set_ne (by omega)]
      · rfl
    have hz2 : d2[m1.off + m1.len]? = some 0 := by simp only [d2]; rw [List.getElem?_set_self hl2]
    have hone : users s₀ a = 1 := by
      have hpos : 0 < users s₀ a := List.countP_pos_iff.2 ⟨s₀.main, List.mem_cons_self .., by simpa using hr⟩
      omega
    have hno : ∀ o ∈ s₀.others, o.ref ≠ some a := by
      intro o ho e
      have h1 : 0 < s₀.others.countP (fun o => decide (o.ref = some a)) := List.countP_pos_iff.2 ⟨o, ho, by simpa using e⟩
      simp only [users, List.countP_cons, hr, decide_true, if_true] at hone
      omega
    have hvo : ∀ o ∈ s₀.others, value h2 o = value s₀.heap o := by
      intro o ho
      refine value_congr ?_
      unfold buf
      cases hor : o.ref with
      | none => rfl
      | some c =>
        have : c ≠ a := fun e => hno o ho (by rw [hor, e])
        simp only [Option.bind_some, h2, this, if_false]
    refine ⟨6, mk s₀ t m1 h2 s₀.next .cRet, mk s₀ t m1 h2 s₀.next .idle, ?_, ?_, mk_start st ?_ (.inl rfl) ?_ hvo, ?_, rfl, hvo⟩
    · have gB := go_cByte (hasher := hasher) (s := s₀) (t := t) (nx := s₀.next) hx
      rw [if_neg hx0] at gB
      have gS := go_cShared (hasher := hasher) (s := s₀) (t := t) (nx := s₀.next) (m := m1) (n := s₀.main.len + 1) hr hb
      rw [if_neg hs] at gS
      exact (hstart 6).trans <| (exec_go (go_cLen h0)).trans <| (exec_go gB).trans <| (exec_go go_cHash).trans <|
        (exec_go gS).trans <| (exec_go (go_cGrowIn (m := m1) hr hb hl)).trans <| exec_go (go_cTerm (m := m1) hr hb hl2)
    · simp only [step]
      exact go_cRet hbuf (drop_of_term hw2 hlen.symm hz2)
    · refine (value_buf h0 hbuf).2 ⟨?_, hw2⟩
      simp only [d2, List.length_set]; exact hwin.1
    · intro o ho c hoc
      have hu : (m1 :: s₀.others).countP (fun o => decide (o.ref = some c)) = users s₀ c := by
        simp only [users, List.countP_cons, m1]
      rw [hu]
      by_cases hca : c = a
      · subst hca
        exact ⟨{ b with data := d2 }, if_pos rfl, hbc⟩
      · have ho' : ∃ o' ∈ s₀.main :: s₀.others, o'.ref = some c := by
          rcases List.mem_cons.1 ho with rfl | ho
          · exact ⟨s₀.main, List.mem_cons_self .., hoc⟩
          · exact ⟨o, List.mem_cons_of_mem _ ho, hoc⟩
        obtain ⟨o', hm', hr'⟩ := ho'
        obtain ⟨bc, hbc', hbcc⟩ := st.count o' hm' c hr'
        exact ⟨bc, by simp only [h2, hca, if_false]; exact hbc', hbcc⟩
    · refine .inr ?_
      show byteAt h2 m1 m1.len = some 0
      simp only [byteAt, hbuf, Option.bind_some]
      exact hz2

end Bdlib.Same
