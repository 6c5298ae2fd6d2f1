import Verif.Ios.Out
import Verif.Props.C65
import Verif.Str.Witness

/-!
# C69: writing Strings to ostreams

`os << s` writes the characters of the String one by one.  With no field width set this is what `os << std::string`
does; the width, however, is applied to the first character only.  Printing a temporary String that shares storage
fails an assertion in debug builds.
-/

namespace Bdlib.Ios
open Bdlib Bdlib.Str Bdlib.Rca Bdlib.Spec

/-- The device takes `n` more bytes. -/
def Takes (os : OStream) (n : Nat) : Prop := ∀ r, os.room = some r → n ≤ r

theorem good_iff {os : OStream} : os.good = true ↔ os.bad = false ∧ os.fail = false := by
  unfold OStream.good; cases os.bad <;> cases os.fail <;> simp

theorem send_takes {os : OStream} {t : Bytes} (h : Takes os t.length) :
    os.send t = { os with out := os.out ++ t, room := os.room.map (· - t.length) } := by
  unfold OStream.send
  cases hr : os.room with
  | none => simp [hr]
  | some r => simp [h r hr]

theorem insert_one {os : OStream} (hg : os.good = true) (hw : os.width ≤ 1) {c : UInt8} (ht : Takes os 1) :
    os.insert [c] = { os with out := os.out ++ [c], width := 0, room := os.room.map (· - 1) } := by
  unfold OStream.insert OStream.padded
  rw [if_pos hg, if_pos (by simpa using hw), send_takes (by simpa using ht)]
  rfl

theorem takes_sub {os : OStream} {n k : Nat} (h : Takes os (n + k)) {out : Bytes} {w : Nat} :
    Takes { os with out := out, width := w, room := os.room.map (· - n) } k := by
  intro r hr
  cases hro : os.room with
  | none => dsimp only at hr; rw [hro] at hr; cases hr
  | some q =>
    dsimp only at hr
    rw [hro] at hr
    cases hr
    have := h q hro
    show k ≤ q - n
    omega

theorem print_plain : ∀ (v : Bytes) (os : OStream), os.good = true → os.width ≤ 1 → Takes os v.length →
    print os v = { os with out := os.out ++ v, width := if v = [] then os.width else 0, room := os.room.map (· - v.length) }
  | [], os, _, _, _ => by
    have : os.room.map (· - ([] : Bytes).length) = os.room := by cases os.room <;> rfl
    rw [this]
    simp [print]
  | c :: v, os, hg, hw, ht => by
    have h1 : Takes os 1 := fun r hr => by have := ht r hr; simp at this; omega
    have h2 := print_plain v { os with out := os.out ++ [c], width := 0, room := os.room.map (· - 1) }
      (good_iff.mpr (good_iff.mp hg)) (Nat.zero_le _) (takes_sub (n := 1) fun r hr => by have := ht r hr; simp at this; omega)
    unfold print
    rw [insert_one hg hw h1, h2]
    simp only [reduceCtorEq, if_false, ite_self, Option.map_map, List.append_assoc, List.singleton_append, List.length_cons]
    congr 2
    funext x
    simp only [Function.comp]
    omega

/-- `os << s` on a stream without a field width, on which nothing went wrong and whose device takes the text: the text
is written, byte for byte (NUL bytes included), nothing else changes, and it is what `os << std::string` does.

Partial: for field widths see `c69_refuted_width`, `c69_refuted_empty` and `c69_width`. -/
theorem c69_text_partial {os : OStream} (hg : os.good = true) (hw : os.width = 0) {v : Bytes} (ht : Takes os v.length) :
    (print os v).out = os.out ++ v ∧ (print os v).good = true ∧ print os v = os.insert v := by
  have h := print_plain v os hg (by omega) ht
  refine ⟨by rw [h], by rw [h]; exact good_iff.mpr (good_iff.mp hg), ?_⟩
  rw [h]
  unfold OStream.insert OStream.padded
  have hw' : os.width ≤ v.length := by omega
  rw [if_pos hg, if_pos hw', send_takes ht, hw]
  simp

/-- With a field width: only the first character is put into the field. -/
theorem c69_width {os : OStream} (hg : os.good = true) {c : UInt8} {v : Bytes}
    (ht : Takes os (max os.width 1 + v.length)) :
    (print os (c :: v)).out = os.out ++ os.padded [c] ++ v ∧ (print os (c :: v)).width = 0 := by
  have hl : (os.padded [c]).length = max os.width 1 := by
    unfold OStream.padded
    split
    · simp at *; omega
    · split <;> simp at * <;> omega
  have h1 : Takes os (os.padded [c]).length := fun r hr => by have := ht r hr; omega
  have h2 := print_plain v { os with out := os.out ++ os.padded [c], width := 0, room := os.room.map (· - (os.padded [c]).length) }
    (good_iff.mpr (good_iff.mp hg)) (Nat.zero_le _) (takes_sub (by rw [hl]; exact ht))
  unfold print OStream.insert
  rw [if_pos hg, send_takes h1]
  dsimp only
  rw [h2]
  simp

theorem print_failed : ∀ (v : Bytes) (os : OStream), os.good = false → (print os v).out = os.out ∧ (print os v).good = false
  | [], os, h => ⟨rfl, h⟩
  | c :: v, os, h => by
    have e : os.insert [c] = { os with fail := true } := by unfold OStream.insert; rw [if_neg (by simp [h])]
    unfold print
    rw [e]
    have := print_failed v { os with fail := true } (by unfold OStream.good; simp)
    exact this

/-- On a stream on which something went wrong nothing is written. -/
theorem c69_failed {os : OStream} (h : os.good = false) (v : Bytes) :
    (print os v).out = os.out ∧ (print os v).good = false := print_failed v os h

/-- If the device takes only the first `r` bytes, these are written, and the stream is bad afterwards. -/
theorem c69_full {os : OStream} (hg : os.good = true) (hw : os.width = 0) : ∀ {v : Bytes} {r : Nat}, os.room = some r →
    r < v.length → (print os v).out = os.out ++ v.take r ∧ (print os v).good = false := by
  intro v r hr hlt
  have e : v = v.take r ++ v.drop r := (List.take_append_drop r v).symm
  have happ : ∀ (a : Bytes) (os : OStream) (b : Bytes), print os (a ++ b) = print (print os a) b := by
    intro a
    induction a with
    | nil => intro _ _; rfl
    | cons c a ih => intro os b; exact ih _ _
  have hlen : (v.take r).length = r := by simp; omega
  have h := print_plain (v.take r) os hg (by omega) fun q hq => by rw [hr] at hq; cases hq; omega
  have hd : ∃ c w, v.drop r = c :: w := by
    cases hd : v.drop r with
    | nil => have : (v.drop r).length = 0 := by rw [hd]; rfl
             simp at this; omega
    | cons c w => exact ⟨c, w, rfl⟩
  obtain ⟨c, w, hd⟩ := hd
  have key : ∀ os : OStream, os.good = true → os.width ≤ 1 → os.room = some 0 →
      (print os (c :: w)).out = os.out ∧ (print os (c :: w)).good = false := by
    intro os hg hw hr
    unfold print
    have e : os.insert [c] = { os with bad := true, width := 0 } := by
      unfold OStream.insert OStream.padded OStream.send
      rw [if_pos hg, if_pos (by simpa using hw), hr]
      simp
    rw [e]
    exact print_failed w _ (by unfold OStream.good; simp)
  have h2 := key (print os (v.take r)) (by rw [h]; exact good_iff.mpr (good_iff.mp hg)) (by rw [h]; dsimp only; split <;> omega)
    (by rw [h, hr]; simp [hlen])
  rw [← hd, ← happ, ← e, h] at h2
  exact h2

/-- An empty stream with unlimited room. -/
def cout : OStream := ⟨[], 0, 32, false, false, false, none⟩

example : cout.good = true ∧ Takes cout 5 ∧ Takes { cout with room := some 7 } 5 := by
  refine ⟨rfl, ?_, ?_⟩
  · intro r h; cases h
  · intro r h; cases h; decide

/-- Exactly when `os << s` does what `os << std::string` does (on a stream on which nothing went wrong, with enough room): there is no
field width, or one character, or a width of 1 and some characters.  Otherwise: -/
theorem c69_exactly {os : OStream} (hg : os.good = true) {v : Bytes} (ht : Takes os (os.width + v.length)) :
    print os v = os.insert v ↔ os.width = 0 ∨ v.length = 1 ∨ (os.width = 1 ∧ v ≠ []) := by
  have hl : ∀ t : Bytes, (os.padded t).length = max os.width t.length := by
    intro t
    unfold OStream.padded
    split
    · omega
    · split <;> simp <;> omega
  have hi : ∀ t : Bytes, t.length ≤ v.length → (os.insert t).out = os.out ++ os.padded t ∧ (os.insert t).width = 0 := by
    intro t h
    unfold OStream.insert
    rw [if_pos hg, send_takes fun r hr => by rw [hl]; have := ht r hr; omega]
    exact ⟨rfl, rfl⟩
  match v with
  | [] =>
    refine ⟨fun h => .inl ?_, fun h => ?_⟩
    · have h2 := (hi [] (Nat.le_refl _)).2
      rw [← h] at h2
      exact h2
    · rcases h with h | h | h
      · exact (c69_text_partial hg h fun r hr => by simp).2.2
      · exact absurd h (by decide)
      · exact absurd rfl h.2
  | [c] => exact ⟨fun _ => .inr (.inl rfl), fun _ => rfl⟩
  | c :: d :: v =>
    refine ⟨fun h => ?_, fun h => ?_⟩
    · have h1 := (c69_width (os := os) hg (c := c) (v := d :: v) fun r hr => by have := ht r hr; simp at this ⊢; omega).1
      rw [h, (hi _ (Nat.le_refl _)).1] at h1
      have h1 := congrArg List.length h1
      simp only [List.length_append, hl] at h1
      simp at h1
      have : os.width ≤ 1 := by omega
      rcases Nat.le_one_iff_eq_zero_or_eq_one.1 this with h | h
      · exact .inl h
      · exact .inr (.inr ⟨h, nofun⟩)
    · have hw : os.width ≤ 1 := by
        rcases h with h | h | h
        · omega
        · simp at h
        · omega
      have ht' : Takes os (c :: d :: v).length := fun r hr => by have := ht r hr; omega
      rw [print_plain _ os hg hw ht']
      unfold OStream.insert OStream.padded
      rw [if_pos hg, if_pos (show os.width ≤ (c :: d :: v).length by simp only [List.length_cons]; omega), send_takes ht']
      simp

/-- Refutation: a text of several characters in a field of at least 2 takes as many more as the field has, less one; a `std::string`
would fill the field. -/
theorem c69_refuted_width {os : OStream} (hg : os.good = true) {v : Bytes} (ht : Takes os (os.width + v.length)) (hw : 1 < os.width) (hv : 1 < v.length) :
    (print os v).out.length = os.out.length + os.width + v.length - 1 ∧ (os.insert v).out.length = os.out.length + max os.width v.length := by
  have hl : ∀ t : Bytes, (os.padded t).length = max os.width t.length := by
    intro t
    unfold OStream.padded
    split
    · omega
    · split <;> simp <;> omega
  constructor
  · match v with
    | c :: v =>
      rw [(c69_width (os := os) hg (c := c) (v := v) fun r hr => by have := ht r hr; simp at this ⊢; omega).1]
      simp only [List.length_append, hl]
      simp
      omega
  · unfold OStream.insert
    rw [if_pos hg, send_takes fun r hr => by rw [hl]; have := ht r hr; omega]
    simp [hl]

/-- Refutation: an empty String does not use up the width; it is applied to what is written next. -/
theorem c69_refuted_empty (os : OStream) (hg : os.good = true) (ht : Takes os os.width) :
    print os [] = os ∧ (os.insert []).width = 0 ∧ (os.insert []).out = os.out ++ List.replicate os.width os.fill := by
  have hp : os.padded [] = List.replicate os.width os.fill := by
    unfold OStream.padded
    split
    · rename_i h; simp at h; simp [h]
    · split <;> simp
  refine ⟨rfl, ?_⟩
  unfold OStream.insert
  rw [if_pos hg, hp, send_takes (by simpa using ht)]
  exact ⟨rfl, rfl⟩

/-- `ab` in a field of 5 takes 6 characters. -/
example : (print { cout with width := 5 } [97, 98]).out = [32, 32, 32, 32, 97, 98] ∧
    (OStream.insert { cout with width := 5 } [97, 98]).out = [32, 32, 32, 97, 98] := by decide
example := c69_exactly (os := { cout with width := 5 }) rfl (v := [97, 98]) nofun
example := c69_refuted_width (os := { cout with width := 5 }) rfl (v := [97, 98]) nofun (by decide) (by decide)
example := c69_refuted_empty { cout with width := 5 } rfl nofun

/-! ### String objects -/

section
variable {cfg : Cfg UInt8} {s : St UInt8} {env : Env UInt8}

/-- `os << s` in any reachable state: the contents are printed and no object changes. -/
theorem c69_object (hv : cfg.Valid) (hp : cfg.Physical) (hr : Reach cfg s env) {a : Nat} {v : Bytes} (ha : env a = .val v)
    (os : OStream) : Answers cfg s env (printP os a) (print os v) := by
  refine answers_of hv hp ?_
  unfold printP
  refine Runs.bind (runs_contents hv hp hr ha) fun _ s1 env1 hr1 e => ?_
  obtain ⟨rfl, rfl⟩ := e
  exact Runs.pure hr1 ⟨rfl, rfl⟩

theorem isShared_eq (hv : cfg.Valid) (hp : cfg.Physical) (hr : Reach cfg s env) {a : Nat} {v : Bytes}
    (ha : env a = .val v) : isShared a s = .ok (shared s a) s := by
  obtain ⟨ob, ho, -⟩ := view_some (hr.view hv hp ha)
  have h := isShared_sat (hr.inv hv hp).1 ho (f := fun b => (pure b : M UInt8 Bool))
    (Q := fun b s' => b = shared s a ∧ s' = s) (E := fun _ _ => False) ⟨rfl, rfl⟩
  have e : (isShared a >>= fun b => (pure b : M UInt8 Bool)) s = isShared a s := by
    show M.bind (isShared a) _ s = _
    unfold M.bind
    cases isShared a s <;> rfl
  rw [e] at h
  cases hm : isShared a s with
  | ub => rw [hm] at h; exact h.elim
  | throw _ _ => rw [hm] at h; exact h.elim
  | ok b t => rw [hm] at h; obtain ⟨rfl, rfl⟩ := h; rfl

/-- `os << std::move(s)`: the same, if the storage is not shared or assertions are off.

Partial: otherwise see `c69_refuted_shared`. -/
theorem c69_rvalue_partial (hv : cfg.Valid) (hp : cfg.Physical) (hr : Reach cfg s env) {a : Nat} {v : Bytes}
    (ha : env a = .val v) {debug : Bool} (hd : debug = false ∨ shared s a = false) (os : OStream) :
    Answers cfg s env (printMoveP debug os a) (some (print os v)) := by
  obtain ⟨s', h1, h2, h3⟩ := c69_object hv hp hr ha os
  refine ⟨s', ?_, h2, h3⟩
  unfold printMoveP
  show M.bind (isShared a) _ s = _
  unfold M.bind
  rw [isShared_eq hv hp hr ha]
  dsimp only
  rw [if_neg (by rcases hd with h | h <;> simp [h])]
  unfold printP at h1
  have h1 : M.bind (contents a) (fun x => Pure.pure (print os x)) s = .ok (print os v) s' := h1
  unfold M.bind at h1
  show M.bind (contents a) (fun x => Pure.pure (some (print os x))) s = _
  unfold M.bind
  cases hc : contents a s with
  | ub => rw [hc] at h1; cases h1
  | throw _ _ => rw [hc] at h1; cases h1
  | ok x t =>
    rw [hc] at h1
    have h1 : (Res.ok (print os x) t : Res UInt8 OStream) = .ok (print os v) s' := h1
    injection h1 with h1 h4
    show (Res.ok (some (print os x)) t : Res UInt8 (Option OStream)) = _
    rw [h1, h4]

/-- In a debug build `os << f()` aborts the program whenever the temporary shares its storage ... -/
theorem c69_shared_aborts (hv : cfg.Valid) (hp : cfg.Physical) (hr : Reach cfg s env) {a : Nat} {v : Bytes}
    (ha : env a = .val v) (hs : shared s a = true) (os : OStream) : printMoveP true os a s = .ok none s := by
  unfold printMoveP
  show M.bind (isShared a) _ s = _
  unfold M.bind
  rw [isShared_eq hv hp hr ha]
  dsimp only
  rw [if_pos (by simp [hs])]
  rfl

/-- ... for example `std::cout << s.substring(2, 3)`: the substring shares the storage of `s`, and the program ends at
the assertion, while the same substring, kept in a variable, is printed. -/
theorem c69_refuted_shared : Reach byteCfg stW envW ∧ envW 1 = .val [98, 44, 97] ∧
    printMoveP true cout 1 stW = .ok none stW ∧
    Answers byteCfg stW envW (printP cout 1) { cout with out := [98, 44, 97] } :=
  ⟨reachW, rfl, c69_shared_aborts byteCfg_valid byteCfg_physical reachW rfl rfl cout,
    c69_object (a := 1) (v := [98, 44, 97]) byteCfg_valid byteCfg_physical reachW rfl cout⟩

/-- Object 3 does not share its storage: printing it as a temporary works in debug builds too. -/
example : Answers byteCfg stW envW (printMoveP true cout 3) (some { cout with out := [44] }) :=
  c69_rvalue_partial (a := 3) (v := [44]) byteCfg_valid byteCfg_physical reachW rfl (Or.inr rfl) cout

end
end Bdlib.Ios
