import Verif.Props.C52

/-!
# C51, C52: `AtomicFile` in general

When exactly `open()` succeeds; names that are too long; and which mistakes leak what, from every state a sequence of calls leads to.
-/

namespace Bdlib.Af
open Bdlib Bdlib.Str Bdlib.Spec

section
variable [Tree] {L : Libc} {S : Sys} {fname : Bytes} {w₀ : World}

/-! ## Names -/

/-- How many characters the template has more than the name. -/
def extra (fname : Bytes) : Nat := if 47 ∈ fname then 9 else 10

/-- The template is what `String::printf` makes of some text ending in `.XXXXXX`. -/
theorem template_text (hL : L.Ok) (h0 : 0 ∉ fname) (hm : fname.length ≤ maxInt) : ∃ u, template L fname = printf (u ++ (46 :: xs)) ∧
    u.length + 7 = fname.length + extra fname ∧ 0 ∉ u := by
  have hnp : fname.length ≤ npos := by unfold maxInt at hm; unfold npos; omega
  by_cases hs : 47 ∈ fname
  · obtain ⟨d, b, rfl, hb⟩ := last_slash hs
    refine ⟨d ++ [47] ++ [46] ++ (47 :: b), ?_, ?_, ?_⟩
    · unfold template
      rw [rfind_slash hL hb hnp]
      simp only [Eff.ret_bind]
      have hd : d.length ≠ npos := by
        simp only [List.length_append, List.length_cons] at hnp hm; unfold npos; unfold maxInt at hm; omega
      simp only [hd, if_false]
      have e1 := slice_in (i := 0) (k := d.length + 1) hm (by simp)
      rw [show ((0 : Nat) : Int) = 0 from rfl] at e1
      rw [e1, slice_rest hm]
      simp only [Eff.ret_bind, List.drop_zero]
      have e2 : (d ++ 47 :: b).take (d.length + 1) = d ++ [47] := by
        rw [List.take_append]; simp [List.take_of_length_le]
      have e3 : (d ++ 47 :: b).drop d.length = 47 :: b := by simp
      rw [e2, e3]
      have z1 : 0 ∉ d ++ [47] := by
        intro hm; apply h0; rcases List.mem_append.1 hm with h | h
        · exact List.mem_append_left _ h
        · simp at h
      have z2 : 0 ∉ (47 : UInt8) :: b := fun hm => h0 (List.mem_append_right _ hm)
      rw [cstr_id z1, cstr_id z2]
      simp [xs]
    · unfold extra; rw [if_pos hs]; simp; omega
    · intro hm
      simp only [List.mem_append, List.mem_cons, List.not_mem_nil, or_false] at hm h0
      rcases hm with ((h | h) | h) | h | h
      · exact h0 (.inl h)
      · cases h
      · cases h
      · cases h
      · exact h0 (.inr (.inr h))
  · refine ⟨[46, 47] ++ [46] ++ fname, ?_, ?_, ?_⟩
    · unfold template
      rw [rfind_noslash hL hs hnp]
      simp only [Eff.ret_bind, if_true]
      have e1 := slice_rest (i := 0) hm
      rw [show ((0 : Nat) : Int) = 0 from rfl] at e1 ⊢
      rw [e1]
      simp only [Eff.ret_bind, List.drop_zero]
      rw [cstr_id (by decide), cstr_id h0]
      simp [xs]
    · unfold extra; rw [if_neg hs]; simp
    · intro hm
      simp only [List.mem_append, List.mem_cons, List.not_mem_nil, or_false] at hm
      rcases hm with ((h | h) | h) | h
      · cases h
      · cases h
      · cases h
      · exact h0 h

theorem endsX_append {u : Bytes} (h0 : 0 ∉ u) : endsX (u ++ (46 :: xs)) = true := by
  unfold endsX
  rw [cstr_id (by intro h; rcases List.mem_append.1 h with h | h; exact h0 h; simp [xs] at h)]
  have : (u ++ 46 :: xs).drop ((u ++ 46 :: xs).length - 6) = xs := by
    rw [show u ++ 46 :: xs = (u ++ [46]) ++ xs by simp]
    rw [List.drop_append_of_le_length (by simp [xs])]
    simp [xs]
  rw [this]; rfl

/-- **C51** When exactly `open()` succeeds, for names whose template has fewer than 4096 characters (9 more than the name's with a slash,
10 without): if `mkstemp` does, which it must not if the chosen name is taken.  Then there is a new empty file with mode 0600 under that
name, open under a new descriptor. -/
theorem c51_open (hL : L.Ok) (h0 : 0 ∉ fname) (hl : fname.length + extra fname < 4096) (w : World) (fresh : Nat) (mode : Option Nat) :
    ∃ t, template L fname = .ret t ∧
    (S.ok .mkstemp w.calls = true → w.fs.dir (entryOf (filled t (S.suffix w.calls))) = none → w.fs.fds fresh = none →
      ∃ w', «open» L S w fresh fname mode = .ret (true, ⟨fname, filled t (S.suffix w.calls), some fresh, mode⟩, w') ∧
        w'.fs.dir = setFn w.fs.dir (entryOf (filled t (S.suffix w.calls))) (some w.fs.inos) ∧
        w'.fs.ino = setFn w.fs.ino w.fs.inos ⟨[], false, 384⟩ ∧ w'.fs.fds = setFn w.fs.fds fresh (some w.fs.inos)) ∧
    (¬ (S.ok .mkstemp w.calls = true ∧ w.fs.dir (entryOf (filled t (S.suffix w.calls))) = none ∧ w.fs.fds fresh = none) →
      «open» L S w fresh fname mode = .ret (false, ⟨fname, t, none, mode⟩, { w with calls := w.calls + 1 })) := by
  obtain ⟨u, h1, h2, h3⟩ := template_text hL h0 (by unfold maxInt; omega)
  rw [c36_printf_partial _ (by simp [xs]; omega)] at h1
  refine ⟨_, h1, fun g1 g2 g3 => ?_, fun hn => ?_⟩
  · unfold «open»
    rw [h1]
    simp only [Eff.ret_bind]
    unfold mkstemp
    rw [show (u ++ 46 :: xs).take ((u ++ 46 :: xs).length - 6) ++ S.suffix w.calls = filled (u ++ 46 :: xs) (S.suffix w.calls) from rfl,
      if_pos ⟨⟨g1, endsX_append h3⟩, g2, g3⟩]
    exact ⟨_, rfl, rfl, rfl, rfl⟩
  · unfold «open»
    rw [h1]
    simp only [Eff.ret_bind]
    unfold mkstemp
    rw [show (u ++ 46 :: xs).take ((u ++ 46 :: xs).length - 6) ++ S.suffix w.calls = filled (u ++ 46 :: xs) (S.suffix w.calls) from rfl,
      if_neg (fun hc => hn ⟨hc.1.1, hc.2.1, hc.2.2⟩)]
    rfl

/-- **C51** A template of exactly 4096 characters loses its last `X`, and `open()` says false: nothing is created. -/
theorem c51_refuted_4096 (hL : L.Ok) (h0 : 0 ∉ fname) (hl : fname.length + extra fname = 4096) (w : World) (fresh : Nat) (mode : Option Nat) :
    ∃ o, «open» L S w fresh fname mode = .ret (false, o, { w with calls := w.calls + 1 }) ∧ o.fd = none := by
  obtain ⟨u, h1, h2, h3⟩ := template_text hL h0 (by unfold maxInt; omega)
  rw [show u ++ 46 :: xs = (u ++ [46, 88, 88, 88, 88, 88]) ++ [88] by simp [xs], c36_refuted_4096 _ _ (by simp; omega)] at h1
  have hx : endsX (u ++ [46, 88, 88, 88, 88, 88] ++ [0]) = false := by
    unfold endsX cstr
    have : (u ++ [46, 88, 88, 88, 88, 88] ++ [0]).takeWhile (· ≠ 0) = u ++ [46, 88, 88, 88, 88, 88] := by
      rw [List.takeWhile_append_of_pos]
      · simp
      · intro x hx
        rcases List.mem_append.1 hx with h | h
        · simp only [ne_eq, decide_eq_true_eq]; rintro rfl; exact h3 h
        · simp only [List.mem_cons, List.not_mem_nil, or_false] at h
          rcases h with rfl | rfl | rfl | rfl | rfl | rfl <;> decide
    rw [this, List.drop_append]
    simp
  unfold «open»
  rw [h1]
  simp only [Eff.ret_bind]
  unfold mkstemp
  dsimp only
  rw [if_neg (by rw [hx]; rintro ⟨⟨-, h⟩, -⟩; cases h)]
  exact ⟨_, rfl, rfl⟩

/-- **C51** With any longer name `open()` reads out of bounds. -/
theorem c51_refuted_longer (hL : L.Ok) (h0 : 0 ∉ fname) (hm : fname.length ≤ maxInt) (hl : 4096 < fname.length + extra fname) (w : World)
    (fresh : Nat) (mode : Option Nat) : «open» L S w fresh fname mode = .ub := by
  obtain ⟨u, h1, h2, h3⟩ := template_text hL h0 hm
  rw [c36_refuted_long _ (by simp [xs]; omega)] at h1
  unfold «open»
  rw [h1]
  rfl

/-! ## Leaks -/

/-- What further calls lead to. -/
inductive Goes (L : Libc) (S : Sys) (fname : Bytes) : Hist → Hist → Prop
  | refl {h : Hist} : Goes L S fname h h
  | step {h h' h'' : Hist} (a : Act) : Goes L S fname h h' → act L S fname h' a = .ret h'' → Goes L S fname h h''

/-- Calls of an object keep the descriptors that are open, other than its own. -/
theorem act_fds {h h' : Hist} {a : Act} {f : Nat} (ha : act L S fname h a = .ret h') (hf : h.w.fs.fds f ≠ none)
    (ho : h.o.fd ≠ some f) : h'.w.fs.fds f = h.w.fs.fds f ∧ h'.o.fd ≠ some f := by
  have hclose : ∀ {w : World} {o : Option Nat}, o ≠ some f → (close S w o).2.fs.fds f = w.fs.fds f := by
    intro w o hne
    cases o with
    | none => rfl
    | some g =>
      show setFn w.fs.fds g none f = _
      exact setFn_ne _ _ fun e => hne (by rw [e])
  have hunlink : ∀ (w : World) (p : Bytes), (unlink S w p).2.fs.fds = w.fs.fds := fun w p => (unlink_frame ..).2.2.1
  cases a with
  | «open» fresh mode =>
    simp only [act] at ha
    cases ht : «open» L S h.w fresh fname mode with
    | ub => rw [ht] at ha; cases ha
    | exc e => rw [ht] at ha; cases ha
    | more => rw [ht] at ha; cases ha
    | ret r =>
      rw [ht] at ha
      injection ha with ha
      subst ha
      unfold «open» at ht
      cases htm : template L fname with
      | ub => rw [htm] at ht; cases ht
      | exc e => rw [htm] at ht; cases ht
      | more => rw [htm] at ht; cases ht
      | ret t =>
        rw [htm] at ht
        simp only [Eff.ret_bind] at ht
        injection ht with ht
        subst ht
        unfold mkstemp
        dsimp only
        split
        · rename_i hc
          have hne : f ≠ fresh := by rintro rfl; exact hf hc.2.2
          exact ⟨setFn_ne _ _ hne, fun e => hne (by injection e with e; exact e.symm)⟩
        · exact ⟨rfl, nofun⟩
  | write g =>
    simp only [act] at ha
    injection ha with ha
    subst ha
    refine ⟨?_, ho⟩
    unfold write
    dsimp only
    split <;> rfl
  | commit =>
    simp only [act] at ha
    injection ha with ha
    subst ha
    refine ⟨?_, by rw [commit_obj]; nofun⟩
    have key : ∀ w : World, (commitData S w h.o).2.2.fs.fds f = w.fs.fds f := by
      intro w
      have s1 : (fsync S w h.o.fd).2.fs.fds = w.fs.fds := (fsync_frame ..).2.2.1
      unfold commitData cleanup
      dsimp only
      split
      · rw [hunlink, s1]
      · split
        · rw [hunlink, hclose ho, s1]
        · split
          · rw [hunlink, fds_rename, hclose ho, s1]
          · rw [fds_rename, hclose ho, s1]
    show (commit S h.w h.o).2.2.fs.fds f = _
    unfold commit
    split
    · exact key _
    · rename_i m _
      have s1 : (fchmod S h.w h.o.fd m).2.fs.fds = h.w.fs.fds := (fchmod_frame ..).2.2.1
      dsimp only
      split
      · unfold cleanup; dsimp only; rw [hunlink, s1]
      · rw [key, s1]
  | abort =>
    simp only [act] at ha
    injection ha with ha
    subst ha
    unfold abort
    split
    · exact ⟨rfl, ho⟩
    · exact ⟨by dsimp only; rw [hclose ho, hunlink], nofun⟩
  | destroy =>
    simp only [act] at ha
    injection ha with ha
    subst ha
    refine ⟨?_, nofun⟩
    unfold destroy abort
    split
    · rfl
    · dsimp only; rw [hclose ho, hunlink]

/-- A descriptor that the object has forgotten is open ever after. -/
theorem forgotten {h h' : Hist} {f : Nat} (hg : Goes L S fname h h') (hf : h.w.fs.fds f ≠ none) (ho : h.o.fd ≠ some f) :
    h'.w.fs.fds f = h.w.fs.fds f ∧ h'.o.fd ≠ some f := by
  induction hg with
  | refl => exact ⟨rfl, ho⟩
  | step a _ ha ih =>
    obtain ⟨h1, h2⟩ := act_fds ha (by rw [ih.1]; exact hf) ih.2
    exact ⟨h1.trans ih.1, h2⟩

/-- **C52** `open()` while a file is open leaks its descriptor, in every state: whatever is called afterwards (destruction included), it
is open. -/
theorem c52_refuted_reopen {h h' h'' : Hist} {f fresh : Nat} {mode : Option Nat} (ho : h.o.fd = some f) (hf : h.w.fs.fds f ≠ none)
    (h1 : act L S fname h (.open fresh mode) = .ret h') (hg : Goes L S fname h' h'') : h''.w.fs.fds f ≠ none ∧ h''.o.fd ≠ some f := by
  have key : h'.w.fs.fds f ≠ none ∧ h'.o.fd ≠ some f := by
    simp only [act] at h1
    cases ht : «open» L S h.w fresh fname mode with
    | ub => rw [ht] at h1; cases h1
    | exc e => rw [ht] at h1; cases h1
    | more => rw [ht] at h1; cases h1
    | ret r =>
      rw [ht] at h1
      injection h1 with h1
      subst h1
      unfold «open» at ht
      cases htm : template L fname with
      | ub => rw [htm] at ht; cases ht
      | exc e => rw [htm] at ht; cases ht
      | more => rw [htm] at ht; cases ht
      | ret t =>
        rw [htm] at ht
        simp only [Eff.ret_bind] at ht
        injection ht with ht
        subst ht
        unfold mkstemp
        dsimp only
        split
        · rename_i hc
          have hne : f ≠ fresh := by rintro rfl; exact hf hc.2.2
          refine ⟨?_, fun e => hne (by injection e with e; exact e.symm)⟩
          show setFn h.w.fs.fds fresh _ f ≠ none
          rw [setFn_ne _ _ hne]; exact hf
        · exact ⟨hf, nofun⟩
  obtain ⟨k1, k2⟩ := forgotten hg key.1 key.2
  exact ⟨by rw [k1]; exact key.1, k2⟩

/-- **C52** `commit()` of an open file whose `fchmod` or `fsync` fails leaks the descriptor, in every state: it says false, and whatever is
called afterwards the descriptor is open. -/
theorem c52_refuted_sync {h h' h'' : Hist} {f : Nat} (_ : h.o.fd = some f) (hf : h.w.fs.fds f ≠ none)
    (hbad : match h.o.mode with
      | none => S.ok .fsync h.w.calls = false
      | some _ => S.ok .fchmod h.w.calls = false ∨ S.ok .fsync (h.w.calls + 1) = false)
    (h1 : act L S fname h .commit = .ret h') (hg : Goes L S fname h' h'') :
    (commit S h.w h.o).1 = false ∧ h''.w.fs.fds f ≠ none ∧ h''.o.fd ≠ some f := by
  have key : ∀ w : World, w.fs.fds f ≠ none → S.ok .fsync w.calls = false →
      (commitData S w h.o).1 = false ∧ (commitData S w h.o).2.2.fs.fds f ≠ none := by
    intro w hw hs
    have s0 : (fsync S w h.o.fd).1 = false := by
      unfold fsync
      dsimp only
      split
      · rfl
      · rw [hs]; rfl
    have s1 : (fsync S w h.o.fd).2.fs.fds = w.fs.fds := (fsync_frame ..).2.2.1
    unfold commitData cleanup
    dsimp only
    rw [if_pos s0]
    refine ⟨rfl, ?_⟩
    dsimp only
    rw [(unlink_frame ..).2.2.1, s1]; exact hw
  have hc : (commit S h.w h.o).1 = false ∧ (commit S h.w h.o).2.2.fs.fds f ≠ none := by
    unfold commit
    cases hm : h.o.mode with
    | none => rw [hm] at hbad; exact key _ hf hbad
    | some m =>
      rw [hm] at hbad
      dsimp only at hbad ⊢
      have s1 : (fchmod S h.w h.o.fd m).2.fs.fds = h.w.fs.fds := (fchmod_frame ..).2.2.1
      by_cases hr : (fchmod S h.w h.o.fd m).1 = false
      · rw [if_pos hr]
        refine ⟨rfl, ?_⟩
        unfold cleanup
        dsimp only
        rw [(unlink_frame ..).2.2.1, s1]; exact hf
      · rw [if_neg hr]
        refine key _ (by rw [s1]; exact hf) ?_
        have hcalls : (fchmod S h.w h.o.fd m).2.calls = h.w.calls + 1 := by
          unfold fchmod World.push; dsimp only; repeat' split
          all_goals rfl
        rw [hcalls]
        refine hbad.resolve_left fun hx => hr ?_
        unfold fchmod
        dsimp only
        split
        · rfl
        · rw [hx]; rfl
  simp only [act] at h1
  injection h1 with h1
  subst h1
  obtain ⟨k1, k2⟩ := forgotten hg (f := f) hc.2 (by rw [commit_obj]; nofun)
  exact ⟨hc.1, by rw [k1]; exact hc.2, k2⟩

/-- **C52** `commit()` of an object that is not open, in every state: it says false, and removes whatever has the temporary name the
object knows, unless `unlink` fails. -/
theorem c52_refuted_foreign {w : World} {o : Obj} (ho : o.fd = none) (hu : ∀ n, S.ok .unlink n = true) :
    (commit S w o).1 = false ∧ (commit S w o).2.2.fs.dir (entryOf o.tmpname) = none := by
  have hcl : ∀ w : World, (cleanup S w o).1 = false ∧ (cleanup S w o).2.2.fs.dir (entryOf o.tmpname) = none := by
    intro w
    refine ⟨rfl, ?_⟩
    unfold cleanup unlink
    dsimp only
    split
    · assumption
    · rw [hu]; exact setFn_same ..
  have hd : ∀ w : World, (commitData S w o).1 = false ∧ (commitData S w o).2.2.fs.dir (entryOf o.tmpname) = none := by
    intro w
    unfold commitData
    rw [ho]
    exact hcl _
  unfold commit
  cases o.mode with
  | none => exact hd w
  | some m => rw [ho]; exact hcl _

end

attribute [local instance] plainTree

/-- "f" is opened as "./.f.abcdef". -/
example := c51_open (S := sysOk) glibc_ok (fname := [102]) (by decide) (by decide) ⟨fs₀, [], 0⟩ 3 none
theorem rep_no (n : Nat) (x : UInt8) (hx : x ≠ 97) : x ∉ List.replicate n (97 : UInt8) := fun h => hx (List.eq_of_mem_replicate h)

/-- A name of 4086 characters, and longer ones, with a slash or not. -/
example := c51_refuted_4096 (S := sysOk) glibc_ok (fname := List.replicate 4086 97) (rep_no _ _ (by decide))
  (by rw [extra, if_neg (rep_no _ _ (by decide)), List.length_replicate]) ⟨fs₀, [], 0⟩ 3 none
example := c51_refuted_longer (S := sysOk) glibc_ok (fname := List.replicate 4087 97) (rep_no _ _ (by decide))
  (by rw [List.length_replicate]; decide) (by rw [extra, if_neg (rep_no _ _ (by decide)), List.length_replicate]; decide) ⟨fs₀, [], 0⟩ 3 none
example := c51_refuted_longer (S := sysOk) glibc_ok (fname := 47 :: List.replicate 4087 97)
  (fun h => rep_no _ _ (by decide) ((List.mem_cons.1 h).resolve_left (by decide)))
  (by rw [List.length_cons, List.length_replicate]; decide)
  (by rw [extra, if_pos (List.mem_cons_self ..), List.length_cons, List.length_replicate]; decide) ⟨fs₀, [], 0⟩ 3 none

example := c52_refuted_reopen (L := glibc) (S := sysTwo) (h := opened sysTwo ⟨⟨fs₀, [], 0⟩, {}, []⟩ 3 none) (f := 3) (fresh := 4) (mode := none)
  rfl (by decide) (act_open ..) (.step .destroy .refl rfl)

example := c52_refuted_sync (L := glibc) (S := sysNoFsync) (fname := [102]) (h := opened sysNoFsync ⟨⟨fs₀, [], 0⟩, {}, []⟩ 3 none) (f := 3)
  rfl (by decide) rfl rfl (.step .destroy .refl rfl)

example := c52_refuted_foreign (S := sysNoTemp) (w := (opened sysNoTemp ⟨⟨fsOther, [], 0⟩, {}, []⟩ 3 none).w)
  (o := (opened sysNoTemp ⟨⟨fsOther, [], 0⟩, {}, []⟩ 3 none).o) (by decide) (fun _ => rfl)

end Bdlib.Af
