import Verif.Conc.Same

/-! # Threads that use the same object: the invariant -/

namespace Bdlib.Same
open Bdlib

variable {hasher : UInt8 → UInt64} {P : Call → Prop} {s₀ s : Sys} {v : List UInt8}

/-- The hash of the value. -/
def H (hasher : UInt8 → UInt64) (v : List UInt8) : UInt64 := Rca.hashLoop hasher 5381 v &&& 0x7FFFFFFF

/-- The object is the common one, up to the cached hash. -/
def Like (hasher : UInt8 → UInt64) (v : List UInt8) (m o : Obj) : Prop :=
  o.ref = m.ref ∧ o.off = m.off ∧ o.len = m.len ∧ (o.hash = 0 ∨ o.hash = H hasher v)

/-- What is known at each place of a call. -/
def At (hasher : UInt8 → UInt64) (s₀ : Sys) (v : List UInt8) : Pc → Prop
  | .atRead i => i < v.length
  | .hashTest i acc => i ≤ v.length ∧ acc = Rca.hashLoop hasher 5381 (v.take i) ∧ s₀.main.hash = 0
  | .hashRead i acc => i < v.length ∧ acc = Rca.hashLoop hasher 5381 (v.take i) ∧ s₀.main.hash = 0
  | .hashPut h => h = H hasher v ∧ s₀.main.hash = 0
  | .copyInc o => Like hasher v s₀.main o
  | .cByte => v ≠ [] ∧ Terminated s₀
  | .cRet => v ≠ [] ∧ Terminated s₀
  | .cLen => Terminated s₀
  | .cHash | .cShared _ | .cOld _ | .cDec _ _ | .cNull _ _ | .cAlloc _ _ | .cFill _ _ | .cGrow _ | .cTerm => False
  | .idle | .length | .atCheck _ | .hashGet | .copyRead => True

structure Inv (hasher : UInt8 → UInt64) (s₀ : Sys) (v : List UInt8) (s : Sys) : Prop where
  main : Like hasher v s₀.main s.main
  cached : s₀.main.hash ≠ 0 → s.main.hash = s₀.main.hash
  heap : ∀ a b, s.heap a = some b → ∃ b₀, s₀.heap a = some b₀ ∧ b.data = b₀.data
  count : ∀ o ∈ s.main :: s.others, ∀ a, o.ref = some a → ∃ b, s.heap a = some b ∧ b.refs = users s a
  others : ∀ o ∈ s.others, (value s₀.heap o).isSome
  pc : ∀ t, At hasher s₀ v (s.pc t)

theorem hashLoop_snoc (h : UInt8 → UInt64) : ∀ (xs : List UInt8) (acc : UInt64) (x : UInt8),
    Rca.hashLoop h acc (xs ++ [x]) = mix h (Rca.hashLoop h acc xs) x
  | [], _, _ => rfl
  | y :: ys, acc, x => by
    simp only [List.cons_append, Rca.hashLoop]
    exact hashLoop_snoc h ys _ x

theorem value_congr {h h' : Nat → Option Blk} {o : Obj} (e : buf h o = buf h' o) : value h o = value h' o := by
  simp [value, e]

theorem Inv.buf_eq (i : Inv hasher s₀ v s) {o : Obj} (ho : o ∈ s.main :: s.others) : buf s.heap o = buf s₀.heap o := by
  unfold buf
  cases hr : o.ref with
  | none => rfl
  | some a =>
    obtain ⟨b, hb, _⟩ := i.count o ho a hr
    obtain ⟨b₀, hb₀, hd⟩ := i.heap a b hb
    simp [hb, hb₀, hd]

theorem buf_of {h : Nat → Option Blk} {o o' : Obj} (e : o.ref = o'.ref) : buf h o = buf h o' := by simp [buf, e]

/-- Facts about the value. -/
structure Val (h : Nat → Option Blk) (o : Obj) (v : List UInt8) : Prop where
  len : o.len = v.length
  byte : ∀ i, (hi : i < v.length) → byteAt h o i = some v[i]

theorem val_of {h : Nat → Option Blk} {o : Obj} (e : value h o = some v) : Val h o v := by
  unfold value at e
  split at e
  · rename_i h0
    cases e
    exact ⟨by simpa using h0, fun i hi => by simp at hi⟩
  · cases hb : buf h o with
    | none => rw [hb] at e; cases e
    | some d =>
      rw [hb] at e
      simp only [Option.bind_some] at e
      split at e
      · rename_i hle
        cases e
        have hl : ((d.drop o.off).take o.len).length = o.len := by
          simp only [List.length_take, List.length_drop]; omega
        refine ⟨hl.symm, fun i hi => ?_⟩
        rw [hl] at hi
        simp only [byteAt, hb, Option.bind_some, List.getElem_take, List.getElem_drop]
        exact List.getElem?_eq_getElem (by omega)
      · cases e

theorem Val.like {h : Nat → Option Blk} {o o' : Obj} (e : Val h o v) (hr : o'.ref = o.ref) (ho : o'.off = o.off)
    (hl : o'.len = o.len) : Val h o' v :=
  ⟨by rw [hl, e.len], fun i hi => by rw [← e.byte i hi]; simp [byteAt, buf, hr, ho]⟩

theorem value_like {h : Nat → Option Blk} {o o' : Obj} (hr : o'.ref = o.ref) (ho : o'.off = o.off)
    (hl : o'.len = o.len) : value h o' = value h o := by
  simp [value, buf, hr, ho, hl]

theorem cBytes_append : ∀ (v w : List UInt8), cBytes (v ++ 0 :: w) = some (v.takeWhile (· ≠ 0) ++ [0])
  | [], _ => by simp [cBytes]
  | x :: xs, w => by
    by_cases hx : x = 0
    · simp [cBytes, hx]
    · simp [cBytes, hx, cBytes_append xs w]

theorem countP_erase (p : Obj → Bool) : ∀ (l : List Obj) (k : Nat) {o : Obj}, l[k]? = some o →
    l.countP p = (l.eraseIdx k).countP p + if p o = true then 1 else 0
  | [], k, o, h => by simp at h
  | x :: xs, 0, o, h => by
    simp only [List.getElem?_cons_zero, Option.some.injEq] at h
    subst h
    simp [List.countP_cons]
  | x :: xs, k + 1, o, h => by
    have := countP_erase p xs k (by simpa using h)
    simp only [List.eraseIdx_cons_succ, List.countP_cons, this]
    omega

variable (st : Start hasher s₀ v)
include st

theorem Inv.init : Inv hasher s₀ v s₀ := by
  refine ⟨⟨rfl, rfl, rfl, st.hash⟩, fun _ => rfl, fun a b hb => ⟨b, hb, rfl⟩, st.count, st.others, fun t => ?_⟩
  rw [st.idle t]; trivial

theorem Inv.val (i : Inv hasher s₀ v s) : Val s.heap s.main v := by
  have h := val_of st.main
  have := h.like i.main.1 i.main.2.1 i.main.2.2.1
  refine ⟨this.len, fun k hk => ?_⟩
  rw [← this.byte k hk]
  simp only [byteAt, i.buf_eq (o := s.main) (List.mem_cons_self ..)]

theorem Inv.value_main (i : Inv hasher s₀ v s) : value s.heap s.main = some v := by
  rw [value_congr (i.buf_eq (o := s.main) (List.mem_cons_self ..)), value_like i.main.1 i.main.2.1 i.main.2.2.1, st.main]

omit st in
/-- A thread moves on without changing anything else. -/
theorem Inv.move (i : Inv hasher s₀ v s) (t : Nat) {p : Pc} (hp : At hasher s₀ v p) :
    Inv hasher s₀ v { s with pc := fun u => if u = t then p else s.pc u } := by
  refine ⟨i.main, i.cached, i.heap, i.count, i.others, fun u => ?_⟩
  by_cases hu : u = t
  · simp only [hu, if_true]; exact hp
  · simp only [hu, if_false]; exact i.pc u

omit st in
/-- The hash is cached. -/
theorem Inv.put (i : Inv hasher s₀ v s) (h0 : s₀.main.hash = 0) :
    Inv hasher s₀ v { s with main := { s.main with hash := H hasher v } } := by
  refine ⟨⟨i.main.1, i.main.2.1, i.main.2.2.1, .inr rfl⟩, fun h => absurd h0 h, i.heap, ?_, i.others, i.pc⟩
  intro o ho a ha
  rcases List.mem_cons.1 ho with rfl | ho
  · have := i.count s.main (List.mem_cons_self ..) a ha
    simpa [users, List.countP_cons] using this
  · have := i.count o (List.mem_cons_of_mem _ ho) a ha
    simpa [users, List.countP_cons] using this

omit st in
/-- An object is copied. -/
theorem Inv.add (i : Inv hasher s₀ v s) {o : Obj} {h : Nat → Option Blk} (hv : (value s₀.heap o).isSome)
    (hl : ∀ a, o.ref = some a → ∃ o' ∈ s.main :: s.others, o'.ref = some a)
    (e : addRef s.heap o 1 = some h) : Inv hasher s₀ v { s with heap := h, others := s.others ++ [o] } := by
  cases hr : o.ref with
  | none =>
    simp only [addRef, hr] at e
    cases e
    refine ⟨i.main, i.cached, i.heap, ?_, ?_, i.pc⟩
    · intro x hx a ha
      have hx' : x ∈ s.main :: s.others := by
        rcases List.mem_cons.1 hx with rfl | hx
        · exact List.mem_cons_self ..
        · rcases List.mem_append.1 hx with hx | hx
          · exact List.mem_cons_of_mem _ hx
          · rw [List.mem_singleton.1 hx, hr] at ha; cases ha
      obtain ⟨b, hb, hc⟩ := i.count x hx' a ha
      refine ⟨b, hb, ?_⟩
      rw [hc]
      simp [users, List.countP_cons, List.countP_append, hr]
    · intro x hx
      rcases List.mem_append.1 hx with hx | hx
      · exact i.others x hx
      · rw [List.mem_singleton.1 hx]; exact hv
  | some a =>
    obtain ⟨o', ho', hra⟩ := hl a hr
    obtain ⟨b, hb, hc⟩ := i.count o' ho' a hra
    simp only [addRef, hr, hb] at e
    cases e
    refine ⟨i.main, i.cached, ?_, ?_, ?_, i.pc⟩
    · intro x bx hx
      simp only at hx
      by_cases hxa : x = a
      · subst hxa
        simp only [if_true, Option.some.injEq] at hx
        subst hx
        exact i.heap x b hb
      · simp only [hxa, if_false] at hx
        exact i.heap x bx hx
    · intro x hx c hxc
      have hu : ∀ c, users { s with heap := fun y => if y = a then some { b with refs := b.refs + 1 } else s.heap y,
                                    others := s.others ++ [o] } c = users s c + if c = a then 1 else 0 := by
        intro c
        by_cases hca : c = a
        · subst hca; simp [users, List.countP_cons, List.countP_append, hr]; omega
        · have : ¬ a = c := fun h => hca h.symm
          simp [users, List.countP_cons, List.countP_append, hr, hca, this]
      rw [hu c]
      by_cases hca : c = a
      · subst hca
        refine ⟨_, if_pos rfl, ?_⟩
        simp [hc]
      · have hx' : x ∈ s.main :: s.others := by
          rcases List.mem_cons.1 hx with rfl | hx
          · exact List.mem_cons_self ..
          · rcases List.mem_append.1 hx with hx | hx
            · exact List.mem_cons_of_mem _ hx
            · rw [List.mem_singleton.1 hx, hr] at hxc; cases hxc; exact absurd rfl hca
        obtain ⟨b', hb', hc'⟩ := i.count x hx' c hxc
        exact ⟨b', by simp only [hca, if_false]; exact hb', by simp [hca, hc']⟩
    · intro x hx
      rcases List.mem_append.1 hx with hx | hx
      · exact i.others x hx
      · rw [List.mem_singleton.1 hx]; exact hv

omit st in
theorem Inv.addRef_ok (i : Inv hasher s₀ v s) {o : Obj} (d : Int)
    (hl : ∀ a, o.ref = some a → ∃ o' ∈ s.main :: s.others, o'.ref = some a) : addRef s.heap o d ≠ none := by
  unfold addRef
  cases hr : o.ref with
  | none => simp
  | some a =>
    obtain ⟨o', ho', hra⟩ := hl a hr
    obtain ⟨b, hb, _⟩ := i.count o' ho' a hra
    simp [hb]

omit st in
/-- One of the other objects is destroyed. -/
theorem Inv.drop (i : Inv hasher s₀ v s) {k : Nat} {o : Obj} {h : Nat → Option Blk} (hk : s.others[k]? = some o)
    (e : release s.heap o = some h) : Inv hasher s₀ v { s with heap := h, others := s.others.eraseIdx k } := by
  have hmem : ∀ x, x ∈ s.main :: s.others.eraseIdx k → x ∈ s.main :: s.others := by
    intro x hx
    rcases List.mem_cons.1 hx with rfl | hx
    · exact List.mem_cons_self ..
    · exact List.mem_cons_of_mem _ (List.mem_of_mem_eraseIdx hx)
  have hu : ∀ c, users s c = users { s with heap := h, others := s.others.eraseIdx k } c + if o.ref = some c then 1 else 0 := by
    intro c
    have := countP_erase (fun o => decide (o.ref = some c)) s.others k hk
    simp only [users, List.countP_cons, this, decide_eq_true_eq]
    omega
  cases hr : o.ref with
  | none =>
    simp only [release, hr] at e
    cases e
    refine ⟨i.main, i.cached, i.heap, ?_, fun x hx => i.others x (List.mem_of_mem_eraseIdx hx), i.pc⟩
    intro x hx a ha
    obtain ⟨b, hb, hc⟩ := i.count x (hmem x hx) a ha
    refine ⟨b, hb, ?_⟩
    rw [hc, hu a, hr]; simp
  | some a =>
    obtain ⟨b, hb, hc⟩ := i.count o (List.mem_cons_of_mem _ (List.mem_of_getElem? hk)) a hr
    simp only [release, hr, hb] at e
    cases e
    refine ⟨i.main, i.cached, ?_, ?_, fun x hx => i.others x (List.mem_of_mem_eraseIdx hx), i.pc⟩
    · intro x bx hx
      simp only at hx
      by_cases hxa : x = a
      · subst hxa
        simp only [if_true] at hx
        split at hx
        · cases hx
        · cases hx; exact i.heap x b hb
      · simp only [hxa, if_false] at hx
        exact i.heap x bx hx
    · intro x hx c hxc
      have huc := hu c
      have hin : 0 < users { s with heap := (fun y => if y = a then (if b.refs - 1 < 1 then none else some { b with refs := b.refs - 1 }) else s.heap y),
                                    others := s.others.eraseIdx k } c := by
        refine List.countP_pos_iff.2 ⟨x, hx, by simpa using hxc⟩
      by_cases hca : c = a
      · subst hca
        rw [if_pos hr] at huc
        refine ⟨{ b with refs := b.refs - 1 }, ?_, ?_⟩
        · simp only [if_true]
          rw [if_neg]
          omega
        · simp only; omega
      · obtain ⟨b', hb', hc'⟩ := i.count x (hmem x hx) c hxc
        refine ⟨b', by simp only [hca, if_false]; exact hb', ?_⟩
        have : ¬ o.ref = some c := by rw [hr]; simp; exact fun h => hca h.symm
        rw [hc', huc, if_neg this]; rfl

/-- What a call may give: `v` is the value of the common object. -/
def Gave (hasher : UInt8 → UInt64) (s₀ : Sys) (v : List UInt8) (h : Nat → Option Blk) : Seen → Prop
  | .length n => n = v.length
  | .at i x => x = v[i]?
  | .hash r => r = H hasher v
  | .copy o => value h o = some v ∧ (o.hash = 0 ∨ o.hash = H hasher v)
  | .cStr bs => bs = v.takeWhile (· ≠ 0) ++ [0]
  | .other o bs => value s₀.heap o = some bs

theorem Inv.go (i : Inv hasher s₀ v s) (t : Nat) :
    match go hasher s t with
    | .stuck => s.pc t = .idle
    | .ub => False
    | .ok s' seen => Inv hasher s₀ v s' ∧ ∀ r, seen = some r → Gave hasher s₀ v s'.heap r := by
  have hv := i.val st
  have hp := i.pc t
  unfold Same.go
  cases hpc : s.pc t <;> rw [hpc] at hp <;> simp only [At] at hp
  case length => exact ⟨i.move t trivial, fun r hr => by cases hr; exact hv.len⟩
  case atCheck k =>
    by_cases h : s.main.len ≤ k
    · simp only [h, if_true]
      refine ⟨i.move t trivial, fun r hr => ?_⟩
      cases hr
      simp only [Gave]
      rw [List.getElem?_eq_none (by rw [← hv.len]; exact h)]
    · simp only [h, if_false]
      exact ⟨i.move t (by simp only [At]; rw [← hv.len]; omega), fun r hr => by cases hr⟩
  case atRead k =>
    simp only [hv.byte k hp]
    refine ⟨i.move t trivial, fun r hr => ?_⟩
    cases hr
    simp [Gave, hp]
  case hashGet =>
    by_cases h : s.main.hash = 0
    · simp only [h, ne_eq, not_true_eq_false, if_false]
      refine ⟨i.move t ⟨by omega, rfl, ?_⟩, fun r hr => by cases hr⟩
      exact Classical.byContradiction fun hc => hc ((i.cached hc).symm.trans h)
    · simp only [h, ne_eq, not_false_eq_true, if_true]
      refine ⟨i.move t trivial, fun r hr => ?_⟩
      cases hr
      rcases i.main.2.2.2 with h' | h'
      · exact absurd h' h
      · exact h'
  case hashTest k acc =>
    obtain ⟨hk, ha, h0⟩ := hp
    by_cases h : k < s.main.len
    · simp only [h, if_true]
      exact ⟨i.move t ⟨by rw [← hv.len]; exact h, ha, h0⟩, fun r hr => by cases hr⟩
    · simp only [h, if_false]
      refine ⟨i.move t ⟨?_, h0⟩, fun r hr => by cases hr⟩
      have : k = v.length := by rw [hv.len] at h; omega
      rw [ha, this, List.take_length]; rfl
  case hashRead k acc =>
    obtain ⟨hk, ha, h0⟩ := hp
    simp only [hv.byte k hk]
    refine ⟨i.move t ⟨hk, ?_, h0⟩, fun r hr => by cases hr⟩
    rw [ha, ← hashLoop_snoc, List.take_succ_eq_append_getElem hk]
  case hashPut h =>
    obtain ⟨rfl, h0⟩ := hp
    exact ⟨(i.put h0).move t trivial, fun r hr => by cases hr; rfl⟩
  case copyRead => exact ⟨i.move t i.main, fun r hr => by cases hr⟩
  case copyInc o =>
    have hl : ∀ a, o.ref = some a → ∃ o' ∈ s.main :: s.others, o'.ref = some a := fun a ha =>
      ⟨s.main, List.mem_cons_self .., by rw [i.main.1, ← hp.1, ha]⟩
    have hvo : value s₀.heap o = some v := by rw [value_like hp.1 hp.2.1 hp.2.2.1, st.main]
    simp only
    cases e : addRef s.heap o 1 with
    | none => exact absurd e (i.addRef_ok 1 hl)
    | some h =>
      have i' := (i.add (by rw [hvo]; rfl) hl e).move t (p := .idle) trivial
      simp only
      refine ⟨i', fun r hr => ?_⟩
      cases hr
      refine ⟨?_, hp.2.2.2⟩
      rw [← hvo]
      exact value_congr (i'.buf_eq (o := o) (List.mem_cons_of_mem _ (List.mem_append_right _ (List.mem_singleton.2 rfl))))
  case cLen =>
    by_cases h : s.main.len = 0
    · simp only [h, if_true]
      refine ⟨i.move t trivial, fun r hr => ?_⟩
      cases hr
      have : v = [] := List.length_eq_zero_iff.1 (by rw [← hv.len]; exact h)
      simp [Gave, this]
    · simp only [h, if_false]
      exact ⟨i.move t ⟨fun hn => h (by rw [hv.len, hn]; rfl), hp⟩, fun r hr => by cases hr⟩
  case cByte =>
    have hb : byteAt s.heap s.main s.main.len = some 0 := by
      rcases hp.2 with h | h
      · have := (val_of st.main).len
        rw [h] at this
        exact absurd (List.length_eq_zero_iff.1 this.symm) hp.1
      · rw [← h]
        simp only [byteAt, i.buf_eq (o := s.main) (List.mem_cons_self ..), buf_of i.main.1, i.main.2.1, i.main.2.2.1]
    simp only [hb, if_true]
    exact ⟨i.move t hp, fun r hr => by cases hr⟩
  case cRet =>
    have hb : byteAt s₀.heap s₀.main s₀.main.len = some 0 := by
      rcases hp.2 with h | h
      · have := (val_of st.main).len
        rw [h] at this
        exact absurd (List.length_eq_zero_iff.1 this.symm) hp.1
      · exact h
    have hb' : buf s.heap s.main = buf s₀.heap s₀.main := by
      rw [i.buf_eq (o := s.main) (List.mem_cons_self ..), buf_of i.main.1]
    cases hd : buf s₀.heap s₀.main with
    | none => simp [byteAt, hd] at hb
    | some d =>
      simp only [byteAt, hd, Option.bind_some] at hb
      have hval := st.main
      have hne : s₀.main.len ≠ 0 := fun h => hp.1 (List.length_eq_zero_iff.1 (by rw [← (val_of st.main).len]; exact h))
      simp only [value, hne, if_false, hd, Option.bind_some] at hval
      have hsplit : d.drop s₀.main.off = v ++ 0 :: (d.drop s₀.main.off).drop (s₀.main.len + 1) := by
        obtain ⟨hlt, h0⟩ := List.getElem?_eq_some_iff.1 hb
        split at hval
        · cases hval
          have h2 : s₀.main.len < (d.drop s₀.main.off).length := by simp only [List.length_drop]; omega
          have h3 : (d.drop s₀.main.off)[s₀.main.len] = 0 := by rw [List.getElem_drop]; exact h0
          rw [← h3, ← List.drop_eq_getElem_cons h2, List.take_append_drop]
        · cases hval
      simp only [hb', hd, i.main.2.1]
      rw [hsplit, cBytes_append]
      exact ⟨i.move t trivial, fun r hr => by cases hr; rfl⟩

/-- Every step. -/
theorem Inv.step (i : Inv hasher s₀ v s) (t : Nat) (act : Act) (hP : act = .call .cStr → Terminated s₀) :
    match step hasher s t act with
    | .stuck => True
    | .ub => False
    | .ok s' seen => Inv hasher s₀ v s' ∧ ∀ r, seen = some r → Gave hasher s₀ v s'.heap r := by
  cases act with
  | go =>
    have := i.go st t
    simp only [Same.step]
    split at this
    · trivial
    · exact this.elim
    · exact this
  | call c =>
    simp only [Same.step]
    by_cases h : s.pc t = .idle
    · simp only [h, if_true]
      refine ⟨i.move t ?_, fun r hr => by cases hr⟩
      cases c <;> simp only [Call.pc, At]
      exact hP rfl
    · simp only [h, if_false]
  | read k =>
    simp only [Same.step]
    cases hk : s.others[k]? with
    | none => trivial
    | some o =>
      by_cases h : s.pc t = .idle
      · simp only [h, if_true]
        have hm := List.mem_of_getElem? hk
        have e := value_congr (i.buf_eq (o := o) (List.mem_cons_of_mem _ hm))
        obtain ⟨bs, hbs⟩ := Option.isSome_iff_exists.1 (i.others o hm)
        simp only [e, hbs]
        exact ⟨i, fun r hr => by cases hr; exact hbs⟩
      · simp only [h, if_false]
  | dup k =>
    simp only [Same.step]
    cases hk : s.others[k]? with
    | none => trivial
    | some o =>
      by_cases h : s.pc t = .idle
      · simp only [h, if_true]
        have hm := List.mem_of_getElem? hk
        have hl : ∀ a, o.ref = some a → ∃ o' ∈ s.main :: s.others, o'.ref = some a := fun a ha => ⟨o, List.mem_cons_of_mem _ hm, ha⟩
        cases e : addRef s.heap o 1 with
        | none => exact absurd e (i.addRef_ok 1 hl)
        | some h => exact ⟨i.add (i.others o hm) hl e, fun r hr => by cases hr⟩
      · simp only [h, if_false]
  | drop k =>
    simp only [Same.step]
    cases hk : s.others[k]? with
    | none => trivial
    | some o =>
      by_cases h : s.pc t = .idle
      · simp only [h, if_true]
        have hm := List.mem_of_getElem? hk
        cases e : release s.heap o with
        | none =>
          unfold release at e
          cases hr : o.ref with
          | none => simp [hr] at e
          | some a =>
            obtain ⟨b, hb, _⟩ := i.count o (List.mem_cons_of_mem _ hm) a hr
            simp [hr, hb] at e
        | some h => exact ⟨i.drop hk e, fun r hr => by cases hr⟩
      · simp only [h, if_false]

theorem Inv.reaches (hP : P .cStr → Terminated s₀) (r : Reaches hasher P s₀ s) : Inv hasher s₀ v s := by
  induction r with
  | init => exact Inv.init st
  | @step s s' t act seen _ hc e ih =>
    have := ih.step st t act (fun h => hP (hc _ h))
    rw [e] at this
    exact this.1

end Bdlib.Same
