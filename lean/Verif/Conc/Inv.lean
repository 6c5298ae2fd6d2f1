import Verif.Spec.Threads
import Verif.Machine.Lists

/-!
# The invariant of concurrent executions without clashes
-/

namespace Bdlib.Conc
open Bdlib

variable {T : Type}

/-- States of executions without clashes; `v` are the values the threads expect. -/
inductive Calm (w : Option (Nat → T)) : Sys T → Vals T → Prop
  | init : Calm w {} fun _ _ => none
  | step {s s' : Sys T} {v : Vals T} {t : Nat} {act : Act T} {seen : Option (List T)} : Calm w s v →
      (act = .go → ∀ t', t' ≠ t → ¬ (s.pc t).clash (s.pc t')) → step w s t act = .ok s' seen →
      Calm w s' (effect v t act)

/-- The calling thread's view of a modification it has started. -/
def pend (p : Pc T) (r : Ref) (xs : List T) : List T :=
  match p with
  | .write r' f => if r = r' then f xs else xs
  | .cow r' f => if r = r' then f xs else xs
  | .detach r' => if r = r' then [] else xs
  | _ => xs

/-- Nobody else uses the storage. -/
def Sole (s : Sys T) (r : Ref) : Prop := ∀ r' ∈ s.refs, r'.blk = r.blk → r' = r

/-- All objects of the thread can be named: none is being destroyed. -/
def NoTmp (s : Sys T) (t : Nat) : Prop := ∀ r ∈ s.refs, r.thr = t → r.obj ≠ none

def PcOk (s : Sys T) (v : Vals T) (t : Nat) : Pc T → Prop
  | .idle => NoTmp s t
  | .write r _ => r ∈ s.refs ∧ r.thr = t ∧ Sole s r ∧ NoTmp s t
  | .cow r _ => r ∈ s.refs ∧ r.thr = t ∧ (∃ r' ∈ s.refs, r' ≠ r ∧ r'.blk = r.blk) ∧ NoTmp s t
  | .copy r f got => r.thr = t ∧ NoTmp s t ∧ (r.len = 0 ∧ got = [] ∨ got.length < r.len) ∧
      ∃ o b, got = (window b.data r.off r.len).take got.length ∧ r.obj = some o ∧ s.heap r.blk = some b ∧ r.off + r.len ≤ b.data.length ∧
        v t o = some (f (window b.data r.off r.len)) ∧ ∀ r' ∈ s.refs, r'.thr = t → r'.obj ≠ some o
  | .detach r => r ∈ s.refs ∧ r.thr = t ∧ (∃ r' ∈ s.refs, r' ≠ r ∧ r'.blk = r.blk) ∧ NoTmp s t
  | .wipe r last => r ∈ s.refs ∧ r.thr = t ∧ r.obj = none ∧ (last = true → Sole s r)
  | .release r => r ∈ s.refs ∧ r.thr = t ∧ r.obj = none
  | .free a => s.heap a ≠ none ∧ (∀ r ∈ s.refs, r.blk ≠ a) ∧ NoTmp s t

structure Inv (s : Sys T) (v : Vals T) : Prop where
  keys : ∀ r ∈ s.refs, ∀ r' ∈ s.refs, r.thr = r'.thr → r.obj = r'.obj → r = r'
  nodup : s.refs.Nodup
  cnt : ∀ a b, s.heap a = some b → b.refs = (s.refs.countP (fun r => decide (r.blk = a)) : Int)
  live : ∀ r ∈ s.refs, ∃ b, s.heap r.blk = some b ∧ r.off + r.len ≤ b.data.length
  fresh : ∀ a, s.next ≤ a → s.heap a = none
  val : ∀ r ∈ s.refs, ∀ o, r.obj = some o → ∀ b, s.heap r.blk = some b →
    v r.thr o = some (pend (s.pc r.thr) r (window b.data r.off r.len))
  pcs : ∀ t, PcOk s v t (s.pc t)
  once : ∀ t t' a, s.pc t = .free a → s.pc t' = .free a → t = t'
  leak : ∀ a b, s.heap a = some b → (∃ r ∈ s.refs, r.blk = a) ∨ ∃ t, s.pc t = .free a

/-! ## Lookups -/

theorem find_some {s : Sys T} {t o : Nat} {r : Ref} (h : s.find t o = some r) :
    r ∈ s.refs ∧ r.thr = t ∧ r.obj = some o := by
  unfold Sys.find at h
  have h1 := List.mem_of_find?_eq_some h
  have h2 := List.find?_some h
  simp at h2
  exact ⟨h1, h2⟩

theorem find_none {s : Sys T} {t o : Nat} (h : ¬ (s.find t o).isSome) : ∀ r ∈ s.refs, r.thr = t → r.obj ≠ some o := by
  intro r hr ht ho
  unfold Sys.find at h
  simp at h
  exact h r hr ht ho

theorem access_ok {s s' : Sys T} {a : Nat} {f : Blk T → Out T} {seen : Option (List T)} (h : s.access a f = .ok s' seen) :
    ∃ b, s.heap a = some b ∧ f b = .ok s' seen := by
  unfold Sys.access at h
  cases hb : s.heap a with
  | none => rw [hb] at h; cases h
  | some b => rw [hb] at h; exact ⟨b, rfl, h⟩

/-! ## Counting -/

abbrev count (l : List Ref) (a : Nat) : Nat := l.countP fun r => decide (r.blk = a)

theorem count_erase {l : List Ref} {r : Ref} (h : r ∈ l) (a : Nat) :
    count l a = count (l.erase r) a + if r.blk = a then 1 else 0 := by
  have := (List.perm_cons_erase h).countP_eq (fun r => decide (r.blk = a))
  unfold count
  rw [this, List.countP_cons]
  simp

theorem count_cons (l : List Ref) (r : Ref) (a : Nat) : count (r :: l) a = count l a + if r.blk = a then 1 else 0 := by
  unfold count
  rw [List.countP_cons]
  simp

theorem count_pos {l : List Ref} {r : Ref} (h : r ∈ l) : 1 ≤ count l r.blk :=
  List.countP_pos_iff.mpr ⟨r, h, by simp⟩

theorem count_zero {l : List Ref} {a : Nat} (h : ∀ r ∈ l, r.blk ≠ a) : count l a = 0 :=
  List.countP_eq_zero.mpr fun r hr => by simpa using h r hr

/-- More than one use means another object. -/
theorem other_of_count {l : List Ref} {r : Ref} (hr : r ∈ l) (h : 1 < count l r.blk) :
    ∃ r' ∈ l.erase r, r'.blk = r.blk := by
  have := count_erase hr r.blk
  rw [if_pos rfl] at this
  obtain ⟨r', h1, h2⟩ := List.countP_pos_iff.mp (show 0 < count (l.erase r) r.blk by omega)
  exact ⟨r', h1, by simpa using h2⟩

/-- A single use means no other object. -/
theorem sole_of_count {l : List Ref} (hn : l.Nodup) {r : Ref} (hr : r ∈ l) (h : count l r.blk ≤ 1) :
    ∀ r' ∈ l, r'.blk = r.blk → r' = r := by
  intro r' hr' hb
  apply Classical.byContradiction
  intro hne
  have h1 := count_erase hr r.blk
  rw [if_pos rfl] at h1
  have h2 : r' ∈ l.erase r := hn.mem_erase_iff.mpr ⟨hne, hr'⟩
  have h3 := count_pos h2
  rw [hb] at h3
  omega

/-! ## The other threads -/

theorem PcOk.frame {s s' : Sys T} {v v' : Vals T} {t t' : Nat} (hI : Inv s v) (ht : t' ≠ t)
    (hpc : s'.pc t' = s.pc t')
    (hcow : ∀ r, ((∃ f, s.pc t' = .cow r f) ∨ s.pc t' = .detach r) → ∀ q ∈ s.refs, q.blk = r.blk →
      ∃ q' ∈ s'.refs, q'.blk = r.blk ∧ (q' = q ∨ q'.thr = t ∨ q' ∉ s.refs))
    (hcopy : ∀ r f g, s.pc t' = .copy r f g → ∀ b, s.heap r.blk = some b → ∃ b', s'.heap r.blk = some b' ∧ b'.data = b.data)
    (hname : ∀ r f g o, s.pc t' = .copy r f g → r.obj = some o →
      v' t' o = v t' o ∧ ∀ q ∈ s'.refs, q.thr = t' → q.obj = some o → q ∈ s.refs)
    (hin : ∀ r ∈ s.refs, r.thr = t' → r ∈ s'.refs)
    (hnew : ∀ r ∈ s'.refs, r ∈ s.refs ∨ ((r.obj ≠ none ∨ r.thr = t) ∧
      (r.blk = s.next ∨ ∃ q ∈ s.refs, q.thr = t ∧ q.blk = r.blk)))
    (hheap : ∀ a, (∀ r ∈ s.refs, r.blk ≠ a) → s.pc t ≠ .free a → s.heap a ≠ none → s'.heap a ≠ none) :
    PcOk s' v' t' (s'.pc t') := by
  have h := hI.pcs t'
  rw [hpc]
  have htmp : NoTmp s t' → NoTmp s' t' := by
    intro hn r hr hrt
    rcases hnew r hr with h | ⟨h | h, _⟩
    · exact hn r h hrt
    · exact h
    · exact absurd (hrt.symm.trans h) ht
  have hsole : ∀ r ∈ s.refs, r.thr = t' → Sole s r → Sole s' r := by
    intro r hr hrt hs r' hr' hb
    rcases hnew r' hr' with h | ⟨_, h | ⟨q, hq, hqt, hqb⟩⟩
    · exact hs r' h hb
    · obtain ⟨b, hb', _⟩ := hI.live r hr
      rw [← hb, h, hI.fresh _ (Nat.le_refl _)] at hb'
      cases hb'
    · have := hs q hq (hqb.trans hb)
      rw [this, hrt] at hqt
      exact absurd hqt ht
  cases hp : s.pc t' with
  | idle => rw [hp] at h; exact htmp h
  | write r f =>
    rw [hp] at h
    obtain ⟨h1, h2, h4, h5⟩ := h
    exact ⟨hin r h1 h2, h2, hsole r h1 h2 h4, htmp h5⟩
  | cow r f =>
    rw [hp] at h
    obtain ⟨h1, h2, ⟨q, h4, h5, h6⟩, h7⟩ := h
    obtain ⟨q', h8, h9, h10⟩ := hcow r (Or.inl ⟨f, hp⟩) q h4 h6
    refine ⟨hin r h1 h2, h2, ⟨q', h8, ?_, h9⟩, htmp h7⟩
    rintro rfl
    rcases h10 with e | e | e
    · exact h5 e.symm
    · exact ht (h2.symm.trans e)
    · exact e h1
  | copy r f g =>
    rw [hp] at h
    obtain ⟨h1, h3, hg, o, b, hg2, h4, h5, h6, h7, h8⟩ := h
    obtain ⟨b', h9, h10⟩ := hcopy r f g hp b h5
    obtain ⟨h11, h12⟩ := hname r f g o hp h4
    refine ⟨h1, htmp h3, hg, o, b', by rw [h10]; exact hg2, h4, h9, by rw [h10]; exact h6, by rw [h11, h10]; exact h7, fun q hq hqt e => ?_⟩
    exact h8 q (h12 q hq hqt e) hqt e
  | detach r =>
    rw [hp] at h
    obtain ⟨h1, h2, ⟨q, h4, h5, h6⟩, h7⟩ := h
    obtain ⟨q', h8, h9, h10⟩ := hcow r (Or.inr hp) q h4 h6
    refine ⟨hin r h1 h2, h2, ⟨q', h8, ?_, h9⟩, htmp h7⟩
    rintro rfl
    rcases h10 with e | e | e
    · exact h5 e.symm
    · exact ht (h2.symm.trans e)
    · exact e h1
  | wipe r last =>
    rw [hp] at h
    obtain ⟨h1, h2, h3, h4⟩ := h
    exact ⟨hin r h1 h2, h2, h3, fun hl => hsole r h1 h2 (h4 hl)⟩
  | release r =>
    rw [hp] at h
    obtain ⟨h1, h2, h3⟩ := h
    exact ⟨hin r h1 h2, h2, h3⟩
  | free a =>
    rw [hp] at h
    obtain ⟨h1, h2, h3⟩ := h
    refine ⟨hheap a h2 (fun e => ht (hI.once t' t a hp e)) h1, fun r hr hb => ?_, htmp h3⟩
    rcases hnew r hr with h | ⟨_, h | ⟨q, hq, _, hqb⟩⟩
    · exact h2 r h hb
    · rw [← hb, h] at h1
      exact h1 (hI.fresh _ (Nat.le_refl _))
    · exact h2 q hq (hqb.trans hb)

theorem upd_same (v : Vals T) (t o : Nat) (x : Option (List T)) : v.upd t o x t o = x := by simp [Vals.upd]

theorem upd_ne (v : Vals T) {t o t' o' : Nat} (x : Option (List T)) (h : ¬ (t' = t ∧ o' = o)) :
    v.upd t o x t' o' = v t' o' := by simp [Vals.upd, h]

theorem inv_init : Inv ({} : Sys T) fun _ _ => none := by
  refine ⟨?_, ?_, ?_, ?_, ?_, ?_, ?_, ?_, ?_⟩
  · intro r hr; cases hr
  · exact List.nodup_nil
  · intro a b h; cases h
  · intro r hr; cases hr
  · intro a _; rfl
  · intro r hr; cases hr
  · intro t r hr; cases hr
  · intro t t' a h; cases h
  · intro a b h; cases h

/-! ## Starting calls -/

/-- `pend` of an idle thread. -/
theorem pend_idle (r : Ref) (xs : List T) : pend (.idle : Pc T) r xs = xs := rfl

/-- A thread gets a new buffer for an object: constructors, and the end of `COW`. -/
theorem inv_fresh {s : Sys T} {v v' : Vals T} {t o n : Nat} {xs : List T} (hI : Inv s v)
    (hpc : s.pc t = .idle ∨ ∃ r f g, s.pc t = .copy r f g)
    (hno : ∀ r ∈ s.refs, r.thr = t → r.obj ≠ some o)
    (hn : n = xs.length) (hv : ∀ t1 o1, ¬ (t1 = t ∧ o1 = o) → v' t1 o1 = v t1 o1) (hval : v' t o = some xs) :
    Inv { (s.setBlk s.next (some ⟨1, xs⟩)).setPc t .idle with
      next := s.next + 1, refs := ⟨t, some o, s.next, 0, n⟩ :: s.refs } v' := by
  subst hn
  have hne : ∀ r ∈ s.refs, r.blk ≠ s.next := by
    intro r hr e
    obtain ⟨b, hb, _⟩ := hI.live r hr
    rw [e, hI.fresh _ (Nat.le_refl _)] at hb
    cases hb
  have hheap : ∀ a, a ≠ s.next → (s.setBlk s.next (some ⟨1, xs⟩)).heap a = s.heap a := by
    intro a ha
    simp [Sys.setBlk, ha]
  have hself : (s.setBlk s.next (some ⟨1, xs⟩)).heap s.next = some ⟨1, xs⟩ := by simp [Sys.setBlk]
  have hpc' : ∀ t1, t1 ≠ t → ((s.setBlk s.next (some ⟨1, xs⟩)).setPc t .idle).pc t1 = s.pc t1 := by
    intro t1 h
    show (if t1 = t then _ else s.pc t1) = _
    rw [if_neg h]
  have hpct : ((s.setBlk s.next (some ⟨1, xs⟩)).setPc t .idle).pc t = .idle := by
    show (if t = t then _ else s.pc t) = _
    rw [if_pos rfl]
  have htmp : NoTmp s t := by
    have := hI.pcs t
    rcases hpc with h | ⟨r, f, g, h⟩
    · rw [h] at this; exact this
    · rw [h] at this; exact this.2.1
  have hnf : ∀ a, s.pc t ≠ .free a := by
    intro a e
    rcases hpc with h | ⟨r, f, g, h⟩ <;> rw [h] at e <;> cases e
  refine ⟨?_, ?_, ?_, ?_, ?_, ?_, ?_, ?_, ?_⟩
  · intro r hr0 r' hr0' h1 h2
    rcases List.mem_cons.mp hr0 with rfl | hr <;> rcases List.mem_cons.mp hr0' with rfl | hr'
    · rfl
    · exact absurd h2.symm (hno r' hr' h1.symm)
    · exact absurd h2 (hno r hr h1)
    · exact hI.keys r hr r' hr' h1 h2
  · exact List.nodup_cons.mpr ⟨fun h => hne _ h rfl, hI.nodup⟩
  · intro a b hb
    change (s.setBlk s.next (some ⟨1, xs⟩)).heap a = some b at hb
    show b.refs = (count _ a : Int)
    rw [count_cons]
    by_cases ha : a = s.next
    · subst ha
      rw [hself] at hb
      cases hb
      rw [count_zero hne]; simp
    · rw [hheap a ha] at hb
      rw [if_neg (Ne.symm ha)]
      have := hI.cnt a b hb
      simpa using this
  · intro r hr
    rcases List.mem_cons.mp hr with rfl | hr
    · exact ⟨_, hself, by simp⟩
    · obtain ⟨b, hb, hl⟩ := hI.live r hr
      exact ⟨b, by rw [← hheap _ (hne r hr)] at hb; exact hb, hl⟩
  · intro a ha
    change s.next + 1 ≤ a at ha
    show (s.setBlk s.next (some ⟨1, xs⟩)).heap a = none
    rw [hheap a (by omega)]
    exact hI.fresh a (by omega)
  · intro r hr0 o' ho' b hb
    change (s.setBlk s.next (some ⟨1, xs⟩)).heap r.blk = some b at hb
    rcases List.mem_cons.mp hr0 with rfl | hr
    · dsimp only at ho' hb
      cases ho'
      rw [hself] at hb
      cases hb
      show v' t o = some (pend (((s.setBlk s.next (some ⟨1, xs⟩)).setPc t .idle).pc t) _ _)
      rw [hval, hpct, pend_idle]
      simp [window]
    · rw [hheap _ (hne r hr)] at hb
      rw [hv]
      · have := hI.val r hr o' ho' b hb
        show _ = some (pend (((s.setBlk s.next (some ⟨1, xs⟩)).setPc t .idle).pc r.thr) _ _)
        by_cases ht : r.thr = t
        · rw [ht, hpct]
          rw [ht] at this
          rcases hpc with h | ⟨_, _, _, h⟩ <;> rw [h] at this <;> exact this
        · rw [hpc' _ ht]; exact this
      · rintro ⟨h1, h2⟩
        subst h2
        exact hno r hr h1 ho'
  · intro t'
    by_cases ht : t' = t
    · subst ht
      show PcOk _ _ t' (((s.setBlk s.next (some ⟨1, xs⟩)).setPc t' .idle).pc t')
      rw [hpct]
      intro r hr hrt
      rcases List.mem_cons.mp hr with rfl | hr
      · exact nofun
      · exact htmp r hr hrt
    · refine PcOk.frame hI ht (hpc' t' ht)
        (fun _ _ q hq e => ⟨q, List.mem_cons_of_mem _ hq, e, Or.inl rfl⟩)
        (fun r f _ _ b hb => ⟨b, by
          show (s.setBlk s.next (some ⟨1, xs⟩)).heap r.blk = _
          rw [hheap _ (by intro e; rw [e, hI.fresh _ (Nat.le_refl _)] at hb; cases hb)]; exact hb, rfl⟩)
        (fun _ _ _ _ _ _ => ⟨hv _ _ fun e => ht e.1, fun q hq hqt _ => by
          rcases List.mem_cons.mp hq with rfl | hq
          · exact absurd hqt.symm ht
          · exact hq⟩) ?_ ?_ ?_
      · exact fun r hr _ => List.mem_cons_of_mem _ hr
      · intro r hr
        rcases List.mem_cons.mp hr with rfl | hr
        · exact Or.inr ⟨Or.inl nofun, Or.inl rfl⟩
        · exact Or.inl hr
      · intro a _ _ ha
        show (s.setBlk s.next (some ⟨1, xs⟩)).heap a ≠ none
        by_cases e : a = s.next
        · subst e; rw [hself]; exact nofun
        · rw [hheap a e]; exact ha
  · intro t1 t2 a h1 h2
    have hh : ∀ t1, ((s.setBlk s.next (some ⟨1, xs⟩)).setPc t .idle).pc t1 = .free a → s.pc t1 = .free a := by
      intro t1 h
      by_cases ht : t1 = t
      · subst ht; rw [hpct] at h; cases h
      · rw [hpc' _ ht] at h; exact h
    exact hI.once t1 t2 a (hh _ h1) (hh _ h2)
  · intro a b hb
    change (s.setBlk s.next (some ⟨1, xs⟩)).heap a = some b at hb
    by_cases ha : a = s.next
    · exact Or.inl ⟨_, List.mem_cons_self, ha.symm⟩
    · rw [hheap a ha] at hb
      rcases hI.leak a b hb with ⟨r, hr, h⟩ | ⟨t1, h⟩
      · exact Or.inl ⟨r, List.mem_cons_of_mem _ hr, h⟩
      · exact Or.inr ⟨t1, (hpc' t1 (by rintro rfl; exact hnf a h)).trans h⟩

/-- A new object, of whatever thread, joins the storage of an object of `t`. -/
theorem inv_add {s : Sys T} {v v' : Vals T} {t t' o' : Nat} {r rn : Ref} {b : Blk T} (hI : Inv s v)
    (hpc : s.pc t = .idle ∨ ∃ q, s.pc t = .release q)
    (hname : ∀ q f g, s.pc t' = .copy q f g → q.obj ≠ some o') (hr : r ∈ s.refs) (hrt : r.thr = t)
    (hb : s.heap r.blk = some b) (hno : ∀ r ∈ s.refs, r.thr = t' → r.obj ≠ some o')
    (hblk : rn.blk = r.blk) (hthr : rn.thr = t') (hobj : rn.obj = some o') (hwin : rn.off + rn.len ≤ b.data.length)
    (hv : ∀ t1 o1, ¬ (t1 = t' ∧ o1 = o') → v' t1 o1 = v t1 o1)
    (hval : v' t' o' = some (window b.data rn.off rn.len)) :
    Inv { s.setBlk r.blk (some { b with refs := b.refs + 1 }) with refs := rn :: s.refs } v' := by
  have hheap : ∀ a b', (s.setBlk r.blk (some { b with refs := b.refs + 1 })).heap a = some b' →
      ∃ b0, s.heap a = some b0 ∧ b'.data = b0.data ∧ b'.refs = b0.refs + if r.blk = a then 1 else 0 := by
    intro a b' h
    by_cases ha : a = r.blk
    · subst ha
      simp [Sys.setBlk] at h
      subst h
      exact ⟨b, hb, rfl, by simp⟩
    · simp [Sys.setBlk, ha] at h
      exact ⟨b', h, rfl, by simp [Ne.symm ha]⟩
  have hheap' : ∀ a b0, s.heap a = some b0 → ∃ b', (s.setBlk r.blk (some { b with refs := b.refs + 1 })).heap a = some b' ∧
      b'.data = b0.data := by
    intro a b0 h
    by_cases ha : a = r.blk
    · subst ha
      rw [hb] at h; cases h
      exact ⟨{ b with refs := b.refs + 1 }, by simp [Sys.setBlk], rfl⟩
    · exact ⟨b0, by simp [Sys.setBlk, ha]; exact h, rfl⟩
  refine ⟨?_, ?_, ?_, ?_, ?_, ?_, ?_, ?_, ?_⟩
  · intro r1 h1' r2 h2' e1 e2
    rcases List.mem_cons.mp h1' with rfl | h1 <;> rcases List.mem_cons.mp h2' with rfl | h2
    · rfl
    · exact absurd (e2.symm.trans hobj) (hno r2 h2 (e1.symm.trans hthr))
    · exact absurd (e2.trans hobj) (hno r1 h1 (e1.trans hthr))
    · exact hI.keys r1 h1 r2 h2 e1 e2
  · exact List.nodup_cons.mpr ⟨fun h => hno _ h hthr hobj, hI.nodup⟩
  · intro a b' h
    obtain ⟨b0, h0, _, h2⟩ := hheap a b' h
    show b'.refs = (count _ a : Int)
    rw [count_cons, h2, hI.cnt a b0 h0, hblk]
    split <;> simp
  · intro r1 h1
    rcases List.mem_cons.mp h1 with rfl | h1
    · obtain ⟨b', e1, e2⟩ := hheap' _ _ hb
      exact ⟨b', by rw [hblk]; exact e1, by rw [e2]; exact hwin⟩
    · obtain ⟨b0, h0, hl⟩ := hI.live r1 h1
      obtain ⟨b', e1, e2⟩ := hheap' _ _ h0
      exact ⟨b', e1, by rw [e2]; exact hl⟩
  · intro a ha
    have hne : a ≠ r.blk := by
      rintro rfl
      rw [hI.fresh _ ha] at hb; cases hb
    show (if a = r.blk then _ else s.heap a) = none
    rw [if_neg hne]
    exact hI.fresh a ha
  · intro r1 h1' o1 ho1 b' hb'
    obtain ⟨b0, h0, hd, _⟩ := hheap _ b' hb'
    rw [hd]
    rcases List.mem_cons.mp h1' with rfl | h1
    · rw [hobj] at ho1
      cases ho1
      rw [hblk, hb] at h0; cases h0
      rw [hthr, hval]
      have : pend (s.pc t') r1 (window b.data r1.off r1.len) = window b.data r1.off r1.len := by
        have hp := hI.pcs t'
        unfold pend
        split
        · rename_i r' f he
          rw [he] at hp
          rw [if_neg]
          rintro rfl
          exact hno _ hp.1 hp.2.1 hobj
        · rename_i r' f he
          rw [he] at hp
          rw [if_neg]
          rintro rfl
          exact hno _ hp.1 hp.2.1 hobj
        · rename_i r' he
          rw [he] at hp
          rw [if_neg]
          rintro rfl
          exact hno _ hp.1 hp.2.1 hobj
        · rfl
      show _ = some (pend (s.pc t') _ _)
      rw [this]
    · rw [hv]
      · exact hI.val r1 h1 o1 ho1 b0 h0
      · rintro ⟨e1, e2⟩
        subst e2
        exact hno r1 h1 e1 ho1
  · intro t1
    by_cases ht : t1 = t
    · subst ht
      show PcOk _ _ t1 (s.pc t1)
      have := hI.pcs t1
      rcases hpc with hpc | ⟨q, hpc⟩
      · rw [hpc] at this ⊢
        intro r1 hr1 hrt1
        rcases List.mem_cons.mp hr1 with rfl | hr1
        · rw [hobj]; exact nofun
        · exact this r1 hr1 hrt1
      · rw [hpc] at this ⊢
        exact ⟨List.mem_cons_of_mem _ this.1, this.2⟩
    · refine PcOk.frame hI ht rfl
        (fun _ _ q hq e => ⟨q, List.mem_cons_of_mem _ hq, e, Or.inl rfl⟩)
        (fun q f _ _ b0 hb0 => by
          show ∃ b', (s.setBlk r.blk (some { b with refs := b.refs + 1 })).heap q.blk = some b' ∧ _
          by_cases e : q.blk = r.blk
          · rw [e] at hb0 ⊢
            rw [hb] at hb0; cases hb0
            exact ⟨{ b with refs := b.refs + 1 }, by simp [Sys.setBlk], rfl⟩
          · exact ⟨b0, by simp only [Sys.setBlk, if_neg e]; exact hb0, rfl⟩)
        (fun q f g o1 hq0 hqo => by
          have hno1 : ¬ (t1 = t' ∧ o1 = o') := by
            rintro ⟨rfl, rfl⟩
            exact hname q f g hq0 hqo
          refine ⟨hv _ _ hno1, fun q1 hq1 hq1t hq1o => ?_⟩
          rcases List.mem_cons.mp hq1 with e1 | hq1
          · rw [e1] at hq1t hq1o
            refine absurd ⟨hq1t.symm.trans hthr, ?_⟩ hno1
            exact (Option.some.inj (hobj.symm.trans hq1o)).symm
          · exact hq1) ?_ ?_ ?_
      · exact fun r hr _ => List.mem_cons_of_mem _ hr
      · intro r1 hr1
        rcases List.mem_cons.mp hr1 with rfl | hr1
        · exact Or.inr ⟨Or.inl (by rw [hobj]; exact nofun), Or.inr ⟨r, hr, hrt, hblk.symm⟩⟩
        · exact Or.inl hr1
      · intro a _ _ ha
        cases h0 : s.heap a with
        | none => exact absurd h0 ha
        | some b0 =>
          obtain ⟨b', e1, _⟩ := hheap' a b0 h0
          show (s.setBlk _ _).heap a ≠ none
          rw [e1]; exact nofun
  · exact hI.once
  · intro a b' h
    obtain ⟨b0, h0, _, _⟩ := hheap a b' h
    rcases hI.leak a b0 h0 with ⟨r1, hr1, e⟩ | e
    · exact Or.inl ⟨r1, List.mem_cons_of_mem _ hr1, e⟩
    · exact Or.inr e

/-- Only the private members of one object of an idle thread change, and the thread may enter a call. -/
theorem inv_setRef {s : Sys T} {v v' : Vals T} {t o : Nat} {r r' : Ref} {p : Pc T} (hI : Inv s v) (hpc : s.pc t = .idle)
    (hr : r ∈ s.refs) (hrt : r.thr = t) (hro : r.obj = some o)
    (hblk : r'.blk = r.blk) (hthr : r'.thr = t) (hobj : r'.obj = none ∨ r'.obj = some o)
    (hwin : r.off ≤ r'.off ∧ r'.off + r'.len ≤ r.off + r.len ∨ r'.len = 0 ∧ r'.off = 0)
    (hv : ∀ t1 o1, ¬ (t1 = t ∧ o1 = o) → v' t1 o1 = v t1 o1)
    (hval : r'.obj = some o → ∀ b, s.heap r.blk = some b → v' t o = some (window b.data r'.off r'.len))
    (hpend : ∀ q xs, pend p q xs = xs) (hfree : ∀ a, p ≠ .free a)
    (hp : PcOk ((s.setRef r r').setPc t p) v' t p) : Inv ((s.setRef r r').setPc t p) v' := by
  have hmem : ∀ q, q ∈ ((s.setRef r r').setPc t p).refs ↔ q = r' ∨ (q ≠ r ∧ q ∈ s.refs) := by
    intro q
    show q ∈ r' :: s.refs.erase r ↔ _
    rw [List.mem_cons, hI.nodup.mem_erase_iff]
  have hnot : ∀ q ∈ s.refs, q ≠ r → q.thr = t → q.obj ≠ some o := by
    intro q hq hne e1 e2
    exact hne (hI.keys q hq r hr (e1.trans hrt.symm) (e2.trans hro.symm))
  have hidle := hI.pcs t
  rw [hpc] at hidle
  have hpc' : ∀ t1, t1 ≠ t → ((s.setRef r r').setPc t p).pc t1 = s.pc t1 := by
    intro t1 h
    show (if t1 = t then p else s.pc t1) = _
    rw [if_neg h]
  have hpct : ((s.setRef r r').setPc t p).pc t = p := by
    show (if t = t then p else s.pc t) = _
    rw [if_pos rfl]
  refine ⟨?_, ?_, ?_, ?_, hI.fresh, ?_, ?_, ?_, ?_⟩
  · intro r1 h1' r2 h2' e1 e2
    rcases (hmem r1).mp h1' with rfl | ⟨n1, h1⟩ <;> rcases (hmem r2).mp h2' with rfl | ⟨n2, h2⟩
    · rfl
    · rcases hobj with ho | ho
      · rw [ho] at e2
        exact absurd e2.symm (hidle r2 h2 (e1.symm.trans hthr))
      · rw [ho] at e2
        exact absurd e2.symm (hnot r2 h2 n2 (e1.symm.trans hthr))
    · rcases hobj with ho | ho
      · rw [ho] at e2
        exact absurd e2 (hidle r1 h1 (e1.trans hthr))
      · rw [ho] at e2
        exact absurd e2 (hnot r1 h1 n1 (e1.trans hthr))
    · exact hI.keys r1 h1 r2 h2 e1 e2
  · show (r' :: s.refs.erase r).Nodup
    refine List.nodup_cons.mpr ⟨fun h => ?_, hI.nodup.erase r⟩
    obtain ⟨h1, h2⟩ := hI.nodup.mem_erase_iff.mp h
    rcases hobj with ho | ho
    · exact hidle r' h2 hthr ho
    · exact hnot r' h2 h1 hthr ho
  · intro a b hb
    show b.refs = (count (r' :: s.refs.erase r) a : Int)
    have := hI.cnt a b hb
    rw [this, count_cons, hblk]
    exact congrArg Int.ofNat (count_erase hr a)
  · intro q hq
    rcases (hmem q).mp hq with rfl | ⟨_, hq⟩
    · obtain ⟨b, hb, hl⟩ := hI.live r hr
      refine ⟨b, by rw [hblk]; exact hb, ?_⟩
      rcases hwin with h | h <;> omega
    · exact hI.live q hq
  · intro q hq o1 ho1 b hb
    rcases (hmem q).mp hq with rfl | ⟨hne, hq⟩
    · rcases hobj with ho | ho
      · rw [ho] at ho1; cases ho1
      · rw [ho] at ho1
        cases ho1
        rw [hthr, hpct, hpend]
        rw [hblk] at hb
        exact hval ho b hb
    · rw [hv _ _ (by rintro ⟨e1, rfl⟩; exact hnot q hq hne e1 ho1)]
      have := hI.val q hq o1 ho1 b hb
      by_cases ht : q.thr = t
      · rw [ht, hpct, hpend]
        rw [ht, hpc] at this
        exact this
      · rw [hpc' _ ht]; exact this
  · intro t1
    by_cases ht : t1 = t
    · subst ht
      rw [hpct]
      exact hp
    · refine PcOk.frame hI ht (hpc' t1 ht)
        (fun q _ q1 hq1 e => by
          by_cases e1 : q1 = r
          · subst e1; exact ⟨r', (hmem _).mpr (Or.inl rfl), hblk.trans e, Or.inr (Or.inl hthr)⟩
          · exact ⟨q1, (hmem _).mpr (Or.inr ⟨e1, hq1⟩), e, Or.inl rfl⟩)
        (fun q f _ _ b hb => ⟨b, hb, rfl⟩)
        (fun q f _ o1 _ _ => ⟨hv _ _ fun e => ht e.1, fun q1 hq1 hq1t _ => by
          rcases (hmem q1).mp hq1 with rfl | ⟨_, hq1⟩
          · exact absurd (hq1t.symm.trans hthr) ht
          · exact hq1⟩) ?_ ?_ (fun a _ _ h => h)
      · intro q hq hqt
        exact (hmem q).mpr (Or.inr ⟨by rintro rfl; exact ht (hqt.symm.trans hrt), hq⟩)
      · intro q hq
        rcases (hmem q).mp hq with rfl | ⟨_, hq⟩
        · exact Or.inr ⟨Or.inr hthr, Or.inr ⟨r, hr, hrt, hblk.symm⟩⟩
        · exact Or.inl hq
  · intro t1 t2 a h1 h2
    have hh : ∀ t1, ((s.setRef r r').setPc t p).pc t1 = .free a → s.pc t1 = .free a := by
      intro t1 h
      by_cases ht : t1 = t
      · subst ht; rw [hpct] at h; exact absurd h (hfree a)
      · rw [hpc' _ ht] at h; exact h
    exact hI.once t1 t2 a (hh _ h1) (hh _ h2)
  · intro a b hb
    rcases hI.leak a b hb with ⟨q, hq, e⟩ | ⟨t1, e⟩
    · by_cases hne : q = r
      · subst hne
        exact Or.inl ⟨r', (hmem r').mpr (Or.inl rfl), hblk.trans e⟩
      · exact Or.inl ⟨q, (hmem q).mpr (Or.inr ⟨hne, hq⟩), e⟩
    · refine Or.inr ⟨t1, ?_⟩
      rw [hpc' _ (by rintro rfl; rw [hpc] at e; cases e)]
      exact e

/-- An object of an idle thread gets another name, and perhaps another thread. -/
theorem inv_move {s : Sys T} {v v' : Vals T} {t t' o o' : Nat} {r r' : Ref} (hI : Inv s v) (hpc : s.pc t = .idle)
    (hname : ∀ q f g, s.pc t' = .copy q f g → q.obj ≠ some o') (hno : ∀ q ∈ s.refs, q.thr = t' → q.obj ≠ some o')
    (hr : r ∈ s.refs) (hrt : r.thr = t) (hro : r.obj = some o)
    (hblk : r'.blk = r.blk) (hthr : r'.thr = t') (hobj : r'.obj = some o') (hoff : r'.off = r.off) (hlen : r'.len = r.len)
    (hv : ∀ t1 o1, ¬ (t1 = t ∧ o1 = o) → ¬ (t1 = t' ∧ o1 = o') → v' t1 o1 = v t1 o1) (hval : v' t' o' = v t o) :
    Inv (s.setRef r r') v' := by
  have hmem : ∀ q, q ∈ (s.setRef r r').refs ↔ q = r' ∨ (q ≠ r ∧ q ∈ s.refs) := by
    intro q
    show q ∈ r' :: s.refs.erase r ↔ _
    rw [List.mem_cons, hI.nodup.mem_erase_iff]
  have hnot : ∀ q ∈ s.refs, q ≠ r → q.thr = t → q.obj ≠ some o := by
    intro q hq hne e1 e2
    exact hne (hI.keys q hq r hr (e1.trans hrt.symm) (e2.trans hro.symm))
  have hnew : r' ∉ s.refs := fun h => hno r' h hthr hobj
  have hidle := hI.pcs t
  rw [hpc] at hidle
  refine ⟨?_, ?_, ?_, ?_, hI.fresh, ?_, ?_, hI.once, ?_⟩
  · intro r1 h1' r2 h2' e1 e2
    rcases (hmem r1).mp h1' with rfl | ⟨n1, h1⟩ <;> rcases (hmem r2).mp h2' with rfl | ⟨n2, h2⟩
    · rfl
    · exact absurd (e2.symm.trans hobj) (hno r2 h2 (e1.symm.trans hthr))
    · exact absurd (e2.trans hobj) (hno r1 h1 (e1.trans hthr))
    · exact hI.keys r1 h1 r2 h2 e1 e2
  · show (r' :: s.refs.erase r).Nodup
    exact List.nodup_cons.mpr ⟨fun h => hnew (List.mem_of_mem_erase h), hI.nodup.erase r⟩
  · intro a b hb
    show b.refs = (count (r' :: s.refs.erase r) a : Int)
    have := hI.cnt a b hb
    rw [this, count_cons, hblk]
    exact congrArg Int.ofNat (count_erase hr a)
  · intro q hq
    rcases (hmem q).mp hq with rfl | ⟨_, hq⟩
    · rw [hblk, hoff, hlen]; exact hI.live r hr
    · exact hI.live q hq
  · intro q hq o1 ho1 b hb
    rcases (hmem q).mp hq with rfl | ⟨hne, hq⟩
    · rw [hobj] at ho1
      cases ho1
      rw [hthr, hval, hoff, hlen]
      have h1 := hI.val r hr o hro b (by rw [← hblk]; exact hb)
      rw [hrt, hpc] at h1
      rw [h1]
      have : pend (s.pc t') q (window b.data r.off r.len) = window b.data r.off r.len := by
        have hp := hI.pcs t'
        unfold pend
        split
        · rename_i r' f he
          rw [he] at hp
          rw [if_neg]
          rintro rfl
          exact hnew hp.1
        · rename_i r' f he
          rw [he] at hp
          rw [if_neg]
          rintro rfl
          exact hnew hp.1
        · rename_i r' he
          rw [he] at hp
          rw [if_neg]
          rintro rfl
          exact hnew hp.1
        · rfl
      show some (pend .idle _ _) = some (pend (s.pc t') _ _)
      rw [this]
      rfl
    · rw [hv _ _ (by rintro ⟨e1, rfl⟩; exact hnot q hq hne e1 ho1) (by rintro ⟨e1, rfl⟩; exact hno q hq e1 ho1)]
      exact hI.val q hq o1 ho1 b hb
  · intro t1
    by_cases ht : t1 = t
    · subst ht
      show PcOk _ _ t1 (s.pc t1)
      rw [hpc]
      intro q hq hqt
      rcases (hmem q).mp hq with rfl | ⟨_, hq⟩
      · rw [hobj]; exact nofun
      · exact hidle q hq hqt
    · refine PcOk.frame hI ht rfl
        (fun q _ q1 hq1 e => by
          by_cases e1 : q1 = r
          · subst e1; exact ⟨r', (hmem _).mpr (Or.inl rfl), hblk.trans e, Or.inr (Or.inr hnew)⟩
          · exact ⟨q1, (hmem _).mpr (Or.inr ⟨e1, hq1⟩), e, Or.inl rfl⟩)
        (fun q f _ _ b hb => ⟨b, hb, rfl⟩)
        (fun q f g o1 hq0 hqo => by
          have hno1 : ¬ (t1 = t' ∧ o1 = o') := by
            rintro ⟨rfl, rfl⟩
            exact hname q f g hq0 hqo
          refine ⟨hv _ _ (fun e => ht e.1) hno1, fun q1 hq1 hq1t hq1o => ?_⟩
          rcases (hmem q1).mp hq1 with e1 | ⟨_, hq1⟩
          · rw [e1] at hq1t hq1o
            refine absurd ⟨hq1t.symm.trans hthr, ?_⟩ hno1
            exact (Option.some.inj (hobj.symm.trans hq1o)).symm
          · exact hq1) ?_ ?_ (fun a _ _ h => h)
      · intro q hq hqt
        exact (hmem q).mpr (Or.inr ⟨by rintro rfl; exact ht (hqt.symm.trans hrt), hq⟩)
      · intro q hq
        rcases (hmem q).mp hq with rfl | ⟨_, hq⟩
        · exact Or.inr ⟨Or.inl (by rw [hobj]; exact nofun), Or.inr ⟨r, hr, hrt, hblk.symm⟩⟩
        · exact Or.inl hq
  · intro a b hb
    rcases hI.leak a b hb with ⟨q, hq, e⟩ | e
    · by_cases hne : q = r
      · subst hne
        exact Or.inl ⟨r', (hmem r').mpr (Or.inl rfl), hblk.trans e⟩
      · exact Or.inl ⟨q, (hmem q).mpr (Or.inr ⟨hne, hq⟩), e⟩
    · exact Or.inr e

/-- An idle thread enters a modification. -/
theorem inv_enter {s : Sys T} {v v' : Vals T} {t o : Nat} {r : Ref} {p : Pc T} (hI : Inv s v) (hpc : s.pc t = .idle)
    (hr : r ∈ s.refs) (hrt : r.thr = t) (hro : r.obj = some o)
    (hv : ∀ t1 o1, ¬ (t1 = t ∧ o1 = o) → v' t1 o1 = v t1 o1)
    (hval : ∀ b, s.heap r.blk = some b → v' t o = some (pend p r (window b.data r.off r.len)))
    (hpend : ∀ q xs, q ≠ r → pend p q xs = xs) (hfree : ∀ a, p ≠ .free a)
    (hp : PcOk (s.setPc t p) v' t p) : Inv (s.setPc t p) v' := by
  have hpc' : ∀ t1, t1 ≠ t → (s.setPc t p).pc t1 = s.pc t1 := by
    intro t1 h
    show (if t1 = t then p else s.pc t1) = _
    rw [if_neg h]
  have hpct : (s.setPc t p).pc t = p := by
    show (if t = t then p else s.pc t) = _
    rw [if_pos rfl]
  refine ⟨hI.keys, hI.nodup, hI.cnt, hI.live, hI.fresh, ?_, ?_, ?_, ?_⟩
  · intro q hq o1 ho1 b hb
    by_cases hne : q = r
    · subst hne
      rw [hro] at ho1
      cases ho1
      rw [hrt, hpct]
      exact hval b hb
    · rw [hv _ _ (by rintro ⟨e1, rfl⟩; exact hne (hI.keys q hq r hr (e1.trans hrt.symm) (ho1.trans hro.symm)))]
      have := hI.val q hq o1 ho1 b hb
      by_cases ht : q.thr = t
      · rw [ht, hpct, hpend _ _ hne]
        rw [ht, hpc] at this
        exact this
      · rw [hpc' _ ht]; exact this
  · intro t1
    by_cases ht : t1 = t
    · subst ht; rw [hpct]; exact hp
    · exact PcOk.frame hI ht (hpc' t1 ht)
        (fun _ _ q hq e => ⟨q, hq, e, Or.inl rfl⟩) (fun q f _ _ b hb => ⟨b, hb, rfl⟩)
        (fun _ _ _ _ _ _ => ⟨hv _ _ fun e => ht e.1, fun q hq _ _ => hq⟩) (fun q hq _ => hq) (fun q hq => Or.inl hq) (fun a _ _ h => h)
  · intro t1 t2 a h1 h2
    have hh : ∀ t1, (s.setPc t p).pc t1 = .free a → s.pc t1 = .free a := by
      intro t1 h
      by_cases ht : t1 = t
      · subst ht; rw [hpct] at h; exact absurd h (hfree a)
      · rw [hpc' _ ht] at h; exact h
    exact hI.once t1 t2 a (hh _ h1) (hh _ h2)
  · intro a b hb
    rcases hI.leak a b hb with h | ⟨t1, e⟩
    · exact Or.inl h
    · exact Or.inr ⟨t1, by rw [hpc' _ (by rintro rfl; rw [hpc] at e; cases e)]; exact e⟩

/-! ## Going on with a call -/

/-- The thread moves on without touching memory. -/
theorem inv_pc {s : Sys T} {v : Vals T} {t : Nat} {p : Pc T} (hI : Inv s v)
    (hp0 : ∀ q xs, pend (s.pc t) q xs = xs)
    (hpend : ∀ q xs, pend p q xs = xs) (hfree0 : ∀ a, s.pc t ≠ .free a) (hfree : ∀ a, p ≠ .free a)
    (hp : PcOk (s.setPc t p) v t p) : Inv (s.setPc t p) v := by
  have hpc' : ∀ t1, t1 ≠ t → (s.setPc t p).pc t1 = s.pc t1 := by
    intro t1 h
    show (if t1 = t then p else s.pc t1) = _
    rw [if_neg h]
  have hpct : (s.setPc t p).pc t = p := by
    show (if t = t then p else s.pc t) = _
    rw [if_pos rfl]
  refine ⟨hI.keys, hI.nodup, hI.cnt, hI.live, hI.fresh, ?_, ?_, ?_, ?_⟩
  · intro q hq o1 ho1 b hb
    have := hI.val q hq o1 ho1 b hb
    by_cases ht : q.thr = t
    · rw [ht, hpct, hpend]
      rw [ht, hp0] at this
      exact this
    · rw [hpc' _ ht]; exact this
  · intro t1
    by_cases ht : t1 = t
    · subst ht; rw [hpct]; exact hp
    · exact PcOk.frame hI ht (hpc' t1 ht)
        (fun _ _ q hq e => ⟨q, hq, e, Or.inl rfl⟩) (fun q f _ _ b hb => ⟨b, hb, rfl⟩)
        (fun _ _ _ _ _ _ => ⟨rfl, fun q hq _ _ => hq⟩) (fun q hq _ => hq) (fun q hq => Or.inl hq) (fun a _ _ h => h)
  · intro t1 t2 a h1 h2
    have hh : ∀ t1, (s.setPc t p).pc t1 = .free a → s.pc t1 = .free a := by
      intro t1 h
      by_cases ht : t1 = t
      · subst ht; rw [hpct] at h; exact absurd h (hfree a)
      · rw [hpc' _ ht] at h; exact h
    exact hI.once t1 t2 a (hh _ h1) (hh _ h2)
  · intro a b hb
    rcases hI.leak a b hb with h | ⟨t1, e⟩
    · exact Or.inl h
    · exact Or.inr ⟨t1, by rw [hpc' _ (by rintro rfl; exact hfree0 a e)]; exact e⟩

/-- The only user of a buffer writes to it. -/
theorem inv_data {s : Sys T} {v : Vals T} {t : Nat} {r : Ref} {b : Blk T} {d : List T} {p : Pc T} (hI : Inv s v)
    (hcalm : ∀ t', t' ≠ t → ∀ q f g, s.pc t' = .copy q f g → q.blk ≠ r.blk) (hr : r ∈ s.refs) (hrt : r.thr = t) (hs : Sole s r)
    (hb : s.heap r.blk = some b) (hd : d.length = b.data.length)
    (hp0 : ∀ q xs, q ≠ r → pend (s.pc t) q xs = xs) (hpend : ∀ q xs, pend p q xs = xs)
    (hval : ∀ o, r.obj = some o → v t o = some (window d r.off r.len))
    (hfree0 : ∀ a, s.pc t ≠ .free a) (hfree : ∀ a, p ≠ .free a)
    (hp : PcOk ((s.setBlk r.blk (some { b with data := d })).setPc t p) v t p) :
    Inv ((s.setBlk r.blk (some { b with data := d })).setPc t p) v := by
  have hpc' : ∀ t1, t1 ≠ t → ((s.setBlk r.blk (some { b with data := d })).setPc t p).pc t1 = s.pc t1 := by
    intro t1 h
    show (if t1 = t then p else s.pc t1) = _
    rw [if_neg h]
  have hpct : ((s.setBlk r.blk (some { b with data := d })).setPc t p).pc t = p := by
    show (if t = t then p else s.pc t) = _
    rw [if_pos rfl]
  have hself : ((s.setBlk r.blk (some { b with data := d })).setPc t p).heap r.blk = some { b with data := d } := by
    simp [Sys.setBlk, Sys.setPc]
  have hheap : ∀ a, a ≠ r.blk → ((s.setBlk r.blk (some { b with data := d })).setPc t p).heap a = s.heap a := by
    intro a ha
    simp [Sys.setBlk, Sys.setPc, ha]
  refine ⟨hI.keys, hI.nodup, ?_, ?_, ?_, ?_, ?_, ?_, ?_⟩
  · intro a b' hb'
    by_cases ha : a = r.blk
    · subst ha
      rw [hself] at hb'
      cases hb'
      exact hI.cnt _ b hb
    · rw [hheap a ha] at hb'
      exact hI.cnt a b' hb'
  · intro q hq
    by_cases e : q = r
    · subst e
      obtain ⟨b0, h0, hl⟩ := hI.live q hq
      rw [hb] at h0; cases h0
      exact ⟨_, hself, by dsimp only; omega⟩
    · obtain ⟨b0, h0, hl⟩ := hI.live q hq
      exact ⟨b0, by rw [hheap _ fun h => e (hs q hq h)]; exact h0, hl⟩
  · intro a ha
    rw [hheap a (by rintro rfl; rw [hI.fresh _ ha] at hb; cases hb)]
    exact hI.fresh a ha
  · intro q hq o1 ho1 b' hb'
    by_cases e : q = r
    · subst e
      rw [hself] at hb'
      cases hb'
      rw [hrt, hpct, hpend]
      exact hval o1 ho1
    · rw [hheap _ fun h => e (hs q hq h)] at hb'
      have := hI.val q hq o1 ho1 b' hb'
      by_cases ht : q.thr = t
      · rw [ht, hpct, hpend]
        rw [ht, hp0 _ _ e] at this
        exact this
      · rw [hpc' _ ht]; exact this
  · intro t1
    by_cases ht : t1 = t
    · subst ht; rw [hpct]; exact hp
    · refine PcOk.frame hI ht (hpc' t1 ht)
        (fun _ _ q hq e => ⟨q, hq, e, Or.inl rfl⟩)
        (fun q f g e b hb => ⟨b, by rw [hheap _ (hcalm t1 ht q f g e)]; exact hb, rfl⟩)
        (fun _ _ _ _ _ _ => ⟨rfl, fun q hq _ _ => hq⟩) (fun q hq _ => hq) (fun q hq => Or.inl hq) fun a _ _ h => ?_
      by_cases ha : a = r.blk
      · subst ha; rw [hself]; exact nofun
      · rw [hheap a ha]; exact h
  · intro t1 t2 a h1 h2
    have hh : ∀ t1, ((s.setBlk r.blk (some { b with data := d })).setPc t p).pc t1 = .free a → s.pc t1 = .free a := by
      intro t1 h
      by_cases ht : t1 = t
      · subst ht; rw [hpct] at h; exact absurd h (hfree a)
      · rw [hpc' _ ht] at h; exact h
    exact hI.once t1 t2 a (hh _ h1) (hh _ h2)
  · intro a b' hb'
    have h0 : ∃ b0, s.heap a = some b0 := by
      by_cases ha : a = r.blk
      · exact ⟨b, by rw [ha]; exact hb⟩
      · rw [hheap a ha] at hb'; exact ⟨b', hb'⟩
    obtain ⟨b0, h0⟩ := h0
    rcases hI.leak a b0 h0 with h | ⟨t1, e⟩
    · exact Or.inl h
    · exact Or.inr ⟨t1, by rw [hpc' _ (by rintro rfl; exact hfree0 a e)]; exact e⟩

/-- The only user of a buffer changes its value. -/
theorem inv_modify {s : Sys T} {v : Vals T} {t : Nat} {r r' : Ref} {b : Blk T} {d : List T} (hI : Inv s v)
    (hcalm : ∀ t', t' ≠ t → ∀ q f g, s.pc t' = .copy q f g → q.blk ≠ r.blk) (hr : r ∈ s.refs) (hrt : r.thr = t) (hs : Sole s r)
    (hb : s.heap r.blk = some b) (hblk : r'.blk = r.blk) (hthr : r'.thr = t) (hobj : r'.obj = r.obj)
    (hd : r'.off + r'.len ≤ d.length) (hn : NoTmp s t)
    (hp0 : ∀ q xs, q ≠ r → pend (s.pc t) q xs = xs)
    (hval : ∀ o, r.obj = some o → v t o = some (window d r'.off r'.len))
    (hfree0 : ∀ a, s.pc t ≠ .free a) :
    Inv (((s.setBlk r.blk (some { b with data := d })).setRef r r').setPc t .idle) v := by
  have hmem : ∀ q, q ∈ (((s.setBlk r.blk (some { b with data := d })).setRef r r').setPc t .idle).refs ↔ q = r' ∨ (q ≠ r ∧ q ∈ s.refs) := by
    intro q
    show q ∈ r' :: s.refs.erase r ↔ _
    rw [List.mem_cons, hI.nodup.mem_erase_iff]
  have hnot : ∀ q ∈ s.refs, q ≠ r → q.thr = t → q.obj ≠ r.obj := by
    intro q hq hne e1 e2
    exact hne (hI.keys q hq r hr (e1.trans hrt.symm) e2)
  have hpc' : ∀ t1, t1 ≠ t → (((s.setBlk r.blk (some { b with data := d })).setRef r r').setPc t .idle).pc t1 = s.pc t1 := by
    intro t1 h
    show (if t1 = t then .idle else s.pc t1) = _
    rw [if_neg h]
  have hpct : (((s.setBlk r.blk (some { b with data := d })).setRef r r').setPc t .idle).pc t = .idle := by
    show (if t = t then .idle else s.pc t) = _
    rw [if_pos rfl]
  have hself : (((s.setBlk r.blk (some { b with data := d })).setRef r r').setPc t .idle).heap r.blk = some { b with data := d } := by
    simp [Sys.setBlk, Sys.setPc, Sys.setRef]
  have hheap : ∀ a, a ≠ r.blk → (((s.setBlk r.blk (some { b with data := d })).setRef r r').setPc t .idle).heap a = s.heap a := by
    intro a ha
    simp [Sys.setBlk, Sys.setPc, Sys.setRef, ha]
  refine ⟨?_, ?_, ?_, ?_, ?_, ?_, ?_, ?_, ?_⟩
  · intro r1 h1' r2 h2' e1 e2
    rcases (hmem r1).mp h1' with rfl | ⟨n1, h1⟩ <;> rcases (hmem r2).mp h2' with rfl | ⟨n2, h2⟩
    · rfl
    · exact absurd (e2.symm.trans hobj) (hnot r2 h2 n2 (e1.symm.trans hthr))
    · exact absurd (e2.trans hobj) (hnot r1 h1 n1 (e1.trans hthr))
    · exact hI.keys r1 h1 r2 h2 e1 e2
  · show (r' :: s.refs.erase r).Nodup
    refine List.nodup_cons.mpr ⟨fun h => ?_, hI.nodup.erase r⟩
    obtain ⟨h1, h2⟩ := hI.nodup.mem_erase_iff.mp h
    exact hnot r' h2 h1 hthr hobj
  · intro a b' hb'
    show b'.refs = (count (r' :: s.refs.erase r) a : Int)
    have : b'.refs = (count s.refs a : Int) := by
      by_cases ha : a = r.blk
      · subst ha
        rw [hself] at hb'
        cases hb'
        exact hI.cnt _ b hb
      · rw [hheap a ha] at hb'
        exact hI.cnt a b' hb'
    rw [this, count_cons, hblk]
    exact congrArg Int.ofNat (count_erase hr a)
  · intro q hq
    rcases (hmem q).mp hq with rfl | ⟨e, hq⟩
    · exact ⟨_, by rw [hblk]; exact hself, hd⟩
    · obtain ⟨b0, h0, hl⟩ := hI.live q hq
      exact ⟨b0, by rw [hheap _ fun h => e (hs q hq h)]; exact h0, hl⟩
  · intro a ha
    rw [hheap a (by rintro rfl; rw [hI.fresh _ ha] at hb; cases hb)]
    exact hI.fresh a ha
  · intro q hq o1 ho1 b' hb'
    rcases (hmem q).mp hq with rfl | ⟨e, hq⟩
    · rw [hblk, hself] at hb'
      cases hb'
      rw [hthr, hpct]
      exact hval o1 (hobj.symm.trans ho1)
    · rw [hheap _ fun h => e (hs q hq h)] at hb'
      have := hI.val q hq o1 ho1 b' hb'
      by_cases ht : q.thr = t
      · rw [ht, hpct]
        rw [ht, hp0 _ _ e] at this
        exact this
      · rw [hpc' _ ht]; exact this
  · intro t1
    by_cases ht : t1 = t
    · subst ht
      rw [hpct]
      intro q hq hqt
      rcases (hmem q).mp hq with rfl | ⟨_, hq⟩
      · rw [hobj]; exact hn r hr hrt
      · exact hn q hq hqt
    · refine PcOk.frame hI ht (hpc' t1 ht)
        (fun q _ q1 hq1 e => by
          by_cases e1 : q1 = r
          · subst e1; exact ⟨r', (hmem _).mpr (Or.inl rfl), hblk.trans e, Or.inr (Or.inl hthr)⟩
          · exact ⟨q1, (hmem _).mpr (Or.inr ⟨e1, hq1⟩), e, Or.inl rfl⟩)
        (fun q f g e b hb => ⟨b, by rw [hheap _ (hcalm t1 ht q f g e)]; exact hb, rfl⟩)
        (fun q f _ o1 _ _ => ⟨rfl, fun q1 hq1 hq1t _ => by
          rcases (hmem q1).mp hq1 with rfl | ⟨_, hq1⟩
          · exact absurd (hq1t.symm.trans hthr) ht
          · exact hq1⟩) ?_ ?_ fun a _ _ h => ?_
      · intro q hq hqt
        exact (hmem q).mpr (Or.inr ⟨by rintro rfl; exact ht (hqt.symm.trans hrt), hq⟩)
      · intro q hq
        rcases (hmem q).mp hq with rfl | ⟨_, hq⟩
        · exact Or.inr ⟨Or.inr hthr, Or.inr ⟨r, hr, hrt, hblk.symm⟩⟩
        · exact Or.inl hq
      · by_cases ha : a = r.blk
        · subst ha; rw [hself]; exact nofun
        · rw [hheap a ha]; exact h
  · intro t1 t2 a h1 h2
    have hh : ∀ t1, (((s.setBlk r.blk (some { b with data := d })).setRef r r').setPc t .idle).pc t1 = .free a → s.pc t1 = .free a := by
      intro t1 h
      by_cases ht : t1 = t
      · subst ht; rw [hpct] at h; cases h
      · rw [hpc' _ ht] at h; exact h
    exact hI.once t1 t2 a (hh _ h1) (hh _ h2)
  · intro a b' hb'
    have h0 : ∃ b0, s.heap a = some b0 := by
      by_cases ha : a = r.blk
      · exact ⟨b, by rw [ha]; exact hb⟩
      · rw [hheap a ha] at hb'; exact ⟨b', hb'⟩
    obtain ⟨b0, h0⟩ := h0
    rcases hI.leak a b0 h0 with ⟨q, hq, e⟩ | ⟨t1, e⟩
    · by_cases hne : q = r
      · subst hne
        exact Or.inl ⟨r', (hmem r').mpr (Or.inl rfl), hblk.trans e⟩
      · exact Or.inl ⟨q, (hmem q).mpr (Or.inr ⟨hne, hq⟩), e⟩
    · exact Or.inr ⟨t1, by rw [hpc' _ (by rintro rfl; exact hfree0 a e)]; exact e⟩

/-- A thread gives up a reference. -/
theorem inv_remove {s : Sys T} {v : Vals T} {t : Nat} {r : Ref} {b : Blk T} {p : Pc T} (hI : Inv s v)
    (hcalm : ∀ t', t' ≠ t → ∀ q, ((∃ f, s.pc t' = .cow q f) ∨ s.pc t' = .detach q) → q.blk ≠ r.blk) (hr : r ∈ s.refs) (hrt : r.thr = t)
    (hb : s.heap r.blk = some b) (hp0 : ∀ q xs, q ≠ r → pend (s.pc t) q xs = xs) (hpend : ∀ q xs, pend p q xs = xs)
    (hfree0 : ∀ a, s.pc t ≠ .free a)
    (hfree : (∃ q ∈ s.refs, q ≠ r ∧ q.blk = r.blk) ∧ (∀ a, p ≠ .free a) ∨ p = .free r.blk ∧ ∀ q ∈ s.refs, q.blk = r.blk → q = r)
    (hp : PcOk { (s.setBlk r.blk (some { b with refs := b.refs - 1 })).setPc t p with refs := s.refs.erase r } v t p) :
    Inv { (s.setBlk r.blk (some { b with refs := b.refs - 1 })).setPc t p with refs := s.refs.erase r } v := by
  have hmem : ∀ q, q ∈ s.refs.erase r ↔ q ≠ r ∧ q ∈ s.refs := fun q => hI.nodup.mem_erase_iff
  have hpc' : ∀ t1, t1 ≠ t → (s.setPc t p).pc t1 = s.pc t1 := by
    intro t1 h
    show (if t1 = t then p else s.pc t1) = _
    rw [if_neg h]
  have hpct : (s.setPc t p).pc t = p := by
    show (if t = t then p else s.pc t) = _
    rw [if_pos rfl]
  have hself : (s.setBlk r.blk (some { b with refs := b.refs - 1 })).heap r.blk = some { b with refs := b.refs - 1 } := by
    simp [Sys.setBlk]
  have hheap : ∀ a, a ≠ r.blk → (s.setBlk r.blk (some { b with refs := b.refs - 1 })).heap a = s.heap a := by
    intro a ha
    simp [Sys.setBlk, ha]
  have hdata : ∀ a b', (s.setBlk r.blk (some { b with refs := b.refs - 1 })).heap a = some b' →
      ∃ b0, s.heap a = some b0 ∧ b'.data = b0.data := by
    intro a b' h
    by_cases ha : a = r.blk
    · subst ha
      rw [hself] at h
      cases h
      exact ⟨b, hb, rfl⟩
    · rw [hheap a ha] at h; exact ⟨b', h, rfl⟩
  refine ⟨?_, hI.nodup.erase r, ?_, ?_, ?_, ?_, ?_, ?_, ?_⟩
  · intro r1 h1 r2 h2 e1 e2
    exact hI.keys r1 ((hmem _).mp h1).2 r2 ((hmem _).mp h2).2 e1 e2
  · intro a b' hb'
    change (s.setBlk r.blk (some { b with refs := b.refs - 1 })).heap a = some b' at hb'
    show b'.refs = (count (s.refs.erase r) a : Int)
    have hc := count_erase hr a
    by_cases ha : a = r.blk
    · subst ha
      rw [hself] at hb'
      cases hb'
      have := hI.cnt _ b hb
      dsimp only
      rw [if_pos rfl] at hc
      change b.refs = (count s.refs r.blk : Int) at this
      omega
    · rw [hheap a ha] at hb'
      rw [if_neg (Ne.symm ha)] at hc
      have := hI.cnt a b' hb'
      change b'.refs = (count s.refs a : Int) at this
      omega
  · intro q hq
    obtain ⟨hne, hq⟩ := (hmem _).mp hq
    obtain ⟨b0, h0, hl⟩ := hI.live q hq
    show ∃ b', (s.setBlk r.blk (some { b with refs := b.refs - 1 })).heap q.blk = some b' ∧ _
    by_cases e : q.blk = r.blk
    · rw [e] at h0 ⊢
      rw [hb] at h0; cases h0
      exact ⟨_, hself, hl⟩
    · exact ⟨b0, by rw [hheap _ e]; exact h0, hl⟩
  · intro a ha
    show (s.setBlk r.blk (some { b with refs := b.refs - 1 })).heap a = none
    rw [hheap a (by rintro rfl; rw [hI.fresh _ ha] at hb; cases hb)]
    exact hI.fresh a ha
  · intro q hq o1 ho1 b' hb'
    obtain ⟨hne, hq⟩ := (hmem _).mp hq
    obtain ⟨b0, h0, hd⟩ := hdata _ b' hb'
    rw [hd]
    have := hI.val q hq o1 ho1 b0 h0
    show _ = some (pend ((s.setPc t p).pc q.thr) q _)
    by_cases ht : q.thr = t
    · rw [ht, hpct, hpend]
      rw [ht, hp0 _ _ hne] at this
      exact this
    · rw [hpc' _ ht]; exact this
  · intro t1
    by_cases ht : t1 = t
    · subst ht
      show PcOk _ _ t1 ((s.setPc t1 p).pc t1)
      rw [hpct]; exact hp
    · refine PcOk.frame hI ht (hpc' t1 ht)
        (fun q hq0 q1 hq1 e => ⟨q1, (hmem _).mpr ⟨by rintro rfl; exact hcalm t1 ht q hq0 e.symm, hq1⟩, e, Or.inl rfl⟩)
        (fun q f _ _ b0 hb0 => by
          show ∃ b', (s.setBlk r.blk (some { b with refs := b.refs - 1 })).heap q.blk = some b' ∧ _
          by_cases e : q.blk = r.blk
          · rw [e] at hb0 ⊢
            rw [hb] at hb0; cases hb0
            exact ⟨_, hself, rfl⟩
          · exact ⟨b0, by rw [hheap _ e]; exact hb0, rfl⟩)
        (fun _ _ _ _ _ _ => ⟨rfl, fun q hq _ _ => ((hmem q).mp hq).2⟩) ?_ (fun q hq => Or.inl ((hmem q).mp hq).2) fun a _ _ h => ?_
      · intro q hq hqt
        exact (hmem q).mpr ⟨by rintro rfl; exact ht (hqt.symm.trans hrt), hq⟩
      · show (s.setBlk r.blk (some { b with refs := b.refs - 1 })).heap a ≠ none
        by_cases ha : a = r.blk
        · subst ha; rw [hself]; exact nofun
        · rw [hheap a ha]; exact h
  · intro t1 t2 a h1 h2
    change (s.setPc t p).pc t1 = _ at h1
    change (s.setPc t p).pc t2 = _ at h2
    -- a thread freeing the block has no reference to it, yet `r` refers to it
    have hno : ∀ t1, t1 ≠ t → s.pc t1 ≠ .free r.blk := by
      intro t1 _ e
      have := hI.pcs t1
      rw [e] at this
      exact this.2.1 r hr rfl
    by_cases e1 : t1 = t <;> by_cases e2 : t2 = t
    · rw [e1, e2]
    · subst e1
      rw [hpct] at h1
      rw [hpc' _ e2] at h2
      rcases hfree with ⟨_, hf⟩ | ⟨hf, _⟩
      · exact absurd h1 (hf a)
      · rw [hf] at h1; cases h1; exact absurd h2 (hno t2 e2)
    · subst e2
      rw [hpct] at h2
      rw [hpc' _ e1] at h1
      rcases hfree with ⟨_, hf⟩ | ⟨hf, _⟩
      · exact absurd h2 (hf a)
      · rw [hf] at h2; cases h2; exact absurd h1 (hno t1 e1)
    · rw [hpc' _ e1] at h1
      rw [hpc' _ e2] at h2
      exact hI.once t1 t2 a h1 h2
  · intro a b' hb'
    obtain ⟨b0, h0, _⟩ := hdata a b' hb'
    rcases hI.leak a b0 h0 with ⟨q, hq, e⟩ | ⟨t1, e⟩
    · by_cases hne : q = r
      · subst hne
        rcases hfree with ⟨⟨q', h1, h2, h3⟩, _⟩ | ⟨hf, _⟩
        · exact Or.inl ⟨q', (hmem q').mpr ⟨h2, h1⟩, h3.trans e⟩
        · refine Or.inr ⟨t, ?_⟩
          show (s.setPc t p).pc t = _
          rw [hpct, hf, e]
      · exact Or.inl ⟨q, (hmem q).mpr ⟨hne, hq⟩, e⟩
    · refine Or.inr ⟨t1, ?_⟩
      show (s.setPc t p).pc t1 = _
      rw [hpc' _ (by rintro rfl; exact hfree0 a e)]
      exact e

/-- The last user deletes the block. -/
theorem inv_free {s : Sys T} {v : Vals T} {t a : Nat} (hI : Inv s v)
    (hcalm : ∀ t', t' ≠ t → ∀ q f g, s.pc t' = .copy q f g → q.blk ≠ a) (hpc : s.pc t = .free a) :
    Inv ((s.setBlk a none).setPc t .idle) v := by
  have hpc' : ∀ t1, t1 ≠ t → ((s.setBlk a none).setPc t .idle).pc t1 = s.pc t1 := by
    intro t1 h
    show (if t1 = t then _ else s.pc t1) = _
    rw [if_neg h]
  have hpct : ((s.setBlk a none).setPc t .idle).pc t = .idle := by
    show (if t = t then _ else s.pc t) = _
    rw [if_pos rfl]
  have hheap : ∀ a', a' ≠ a → ((s.setBlk a none).setPc t .idle).heap a' = s.heap a' := by
    intro a' h
    simp [Sys.setBlk, Sys.setPc, h]
  have hself : ((s.setBlk a none).setPc t .idle).heap a = none := by simp [Sys.setBlk, Sys.setPc]
  have hp := hI.pcs t
  rw [hpc] at hp
  obtain ⟨h1, h2, h3⟩ := hp
  have hne : ∀ a' b', ((s.setBlk a none).setPc t .idle).heap a' = some b' → a' ≠ a ∧ s.heap a' = some b' := by
    intro a' b' h
    by_cases e : a' = a
    · subst e; rw [hself] at h; cases h
    · rw [hheap a' e] at h; exact ⟨e, h⟩
  refine ⟨hI.keys, hI.nodup, ?_, ?_, ?_, ?_, ?_, ?_, ?_⟩
  · intro a' b' h
    exact hI.cnt a' b' (hne a' b' h).2
  · intro q hq
    obtain ⟨b, hb, hl⟩ := hI.live q hq
    exact ⟨b, by rw [hheap _ (h2 q hq)]; exact hb, hl⟩
  · intro a' ha
    by_cases e : a' = a
    · subst e; exact hself
    · rw [hheap a' e]; exact hI.fresh a' ha
  · intro q hq o ho b hb
    have := hI.val q hq o ho b (hne _ b hb).2
    by_cases ht : q.thr = t
    · rw [ht, hpct]
      rw [ht, hpc] at this
      exact this
    · rw [hpc' _ ht]; exact this
  · intro t1
    by_cases ht : t1 = t
    · subst ht; rw [hpct]; exact h3
    · refine PcOk.frame hI ht (hpc' t1 ht)
        (fun _ _ q hq e => ⟨q, hq, e, Or.inl rfl⟩)
        (fun q f g e b hb => ⟨b, by rw [hheap _ (hcalm t1 ht q f g e)]; exact hb, rfl⟩)
        (fun _ _ _ _ _ _ => ⟨rfl, fun q hq _ _ => hq⟩) (fun q hq _ => hq) (fun q hq => Or.inl hq) fun a' _ hf h => ?_
      rw [hheap a' (by rintro rfl; exact hf hpc)]
      exact h
  · intro t1 t2 a' e1 e2
    have hh : ∀ t1, ((s.setBlk a none).setPc t .idle).pc t1 = .free a' → s.pc t1 = .free a' := by
      intro t1 h
      by_cases ht : t1 = t
      · subst ht; rw [hpct] at h; cases h
      · rw [hpc' _ ht] at h; exact h
    exact hI.once t1 t2 a' (hh _ e1) (hh _ e2)
  · intro a' b' h
    obtain ⟨e, h⟩ := hne a' b' h
    rcases hI.leak a' b' h with hl | ⟨t1, hf⟩
    · exact Or.inl hl
    · refine Or.inr ⟨t1, ?_⟩
      rw [hpc' _ (by rintro rfl; rw [hpc] at hf; cases hf; exact e rfl)]
      exact hf

end Bdlib.Conc
