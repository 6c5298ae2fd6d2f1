import Verif.Nest.Play
import Verif.Prog.Simple

/-!
# Reasoning about programs that use strings and arrays of strings

The functions of the library that work on both (`split`, `join`, ...) are programs made of calls of the public
interface.  `Ends` is a Hoare triple for such programs: not undefined, and what all strings and arrays hold
afterwards is known.
-/

namespace Bdlib.Nest
open Bdlib Bdlib.Spec Bdlib.Rca

variable {c : Conf} {α β : Type}

/-- Run in `w`, `m` is not undefined.  If it returns `a`, strings and arrays hold `es'` and `ea'` with
`Q a es' ea'`; if it throws `e`, they hold some with `E e es' ea'`; `lost` strings are out of reach. -/
def Ends (c : Conf) (lost : Nat) (m : P α) (w : World) (Q : α → Env UInt8 → Env Elem → Prop)
    (E : Exc → Env UInt8 → Env Elem → Prop) : Prop :=
  match m w with
  | .ok a w' => ∃ es' ea', All c w' es' ea' lost ∧ Q a es' ea'
  | .throw e w' => ∃ es' ea', All c w' es' ea' lost ∧ E e es' ea'
  | .ub => False

section
variable {lost : Nat} {w : World} {es : Env UInt8} {ea : Env Elem} {Q : β → Env UInt8 → Env Elem → Prop}
  {E : Exc → Env UInt8 → Env Elem → Prop}

theorem Ends.bind {m : P α} {f : α → P β} {Q' : α → Env UInt8 → Env Elem → Prop} (h : Ends c lost m w Q' E)
    (hf : ∀ a w' es' ea', All c w' es' ea' lost → Q' a es' ea' → Ends c lost (f a) w' Q E) : Ends c lost (m >>= f) w Q E := by
  unfold Ends at h ⊢
  rw [show (m >>= f) w = P.bind m f w from rfl]
  unfold P.bind
  cases hm : m w with
  | ub => rw [hm] at h; exact h
  | throw e w' => rw [hm] at h; exact h
  | ok a w' =>
    rw [hm] at h
    obtain ⟨es', ea', h1, h2⟩ := h
    exact hf a w' es' ea' h1 h2

theorem Ends.pure {a : β} (h : All c w es ea lost) (hq : Q a es ea) : Ends c lost (Pure.pure a) w Q E := ⟨es, ea, h, hq⟩

theorem Ends.mono {m : P β} {Q' : β → Env UInt8 → Env Elem → Prop} {E' : Exc → Env UInt8 → Env Elem → Prop}
    (h : Ends c lost m w Q' E') (hq : ∀ a es ea, Q' a es ea → Q a es ea) (he : ∀ e es ea, E' e es ea → E e es ea) :
    Ends c lost m w Q E := by
  unfold Ends at *
  cases hm : m w with
  | ub => rw [hm] at h; exact h
  | throw e w' => rw [hm] at h; obtain ⟨es', ea', h1, h2⟩ := h; exact ⟨es', ea', h1, he _ _ _ h2⟩
  | ok a w' => rw [hm] at h; obtain ⟨es', ea', h1, h2⟩ := h; exact ⟨es', ea', h1, hq _ _ _ h2⟩

theorem Ends.onThrow {m : P β} {d : P Unit} {E' : Exc → Env UInt8 → Env Elem → Prop} (h : Ends c lost m w Q E')
    (hd : ∀ e w' es' ea', All c w' es' ea' lost → E' e es' ea' →
      Ends c lost d w' (fun _ es'' ea'' => E e es'' ea'') (fun _ _ _ => False)) : Ends c lost (m.onThrow d) w Q E := by
  unfold Ends P.onThrow at *
  cases hm : m w with
  | ub => rw [hm] at h; exact h
  | ok a w' => rw [hm] at h; exact h
  | throw e w' =>
    rw [hm] at h
    obtain ⟨es', ea', h1, h2⟩ := h
    have := hd e w' es' ea' h1 h2
    dsimp only
    cases ht : d w' with
    | ub => rw [ht] at this; exact this
    | ok a w'' => rw [ht] at this; exact this
    | throw e w'' => rw [ht] at this; obtain ⟨_, _, _, h⟩ := this; exact h.elim

/-- A call of the interface that leaves no string behind. -/
theorem ends_call (hc : c.Good) (h : All c w es ea lost) {call : Call} {m : P β} {f : β → Ans}
    (hrun : run c call = (do let x ← m; Pure.pure (f x))) (hw : ∀ out, wasted ea call out = 0)
    (hpre : Pre c (shared w.strs) (shared w.arrs) es ea call)
    (hq : ∀ a es' ea', Post c (shared w.strs) (shared w.arrs) es ea call (.ret (f a)) es' ea' → Q a es' ea')
    (he : ∀ e es' ea', Post c (shared w.strs) (shared w.arrs) es ea call (.exc e) es' ea' → E e es' ea') : Ends c lost m w Q E := by
  obtain ⟨out, w', es', ea', hres, hpost, hall⟩ := all_step hc h hpre
  rw [hw, Nat.add_zero] at hall
  rw [hrun] at hres
  unfold Ends
  change result (P.bind m _ w) = _ at hres
  unfold P.bind at hres
  cases hm : m w with
  | ub => rw [hm] at hres; cases hres
  | ok a t => rw [hm] at hres; cases hres; exact ⟨es', ea', hall, hq _ _ _ hpost⟩
  | throw e t => rw [hm] at hres; cases hres; exact ⟨es', ea', hall, he _ _ _ hpost⟩

/-- All strings hold `env`; those in `C` are not strings of the program, but elements of arrays or out of reach. -/
structure View (c : Conf) (w : World) (es : Env UInt8) (ea : Env Elem) (lost : Nat) (C : Nat → Prop) (env : Env UInt8) : Prop where
  live : ∀ x, C x → env x ≠ .dead
  mine : es = cut C env
  reach : Reach c.str w.strs env
  arr : ∀ a xs, ea a = .val xs → Rca.length a w.arrs = .ok xs.length w.arrs ∧
    ∀ i y, xs[i]? = some y → ∃ t, cell a i w = .ok t w ∧ C t ∧ env t = y
  size : ∀ a xs, ea a = .val xs → xs.length < maxCells
  same : ∀ a b xs ys, ea a = .val xs → ea b = .val ys → ∃ r, sameStart a b w.arrs = .ok r w.arrs ∧
    (r = true → xs.length = ys.length → xs = ys)
  back : ∀ s' env', Reach c.str s' env' → (∀ x, C x → env' x = env x) → All c { w with strs := s' } (cut C env') ea lost

theorem all_view (hc : c.Good) (h : All c w es ea lost) : ∃ C env, View c w es ea lost C env := by
  obtain ⟨us, H, hnd, hlen, hlive, rfl, σ, ⟨env, hR⟩, hA⟩ := h
  refine ⟨fun x => (∃ a, x ∈ cellsAt w.arrs a) ∨ x ∈ H, env, ?_, ?_, hR.reach, ?_,
    fun a xs ha => hA.len_lt (val_valid c) (val_phys hc) ha, ?_, ?_⟩
  · rintro x (⟨a, ha⟩ | hx)
    · exact (hR.cell a x ha).1
    · intro hd
      by_cases hcell : ∃ a, x ∈ cellsAt w.arrs a
      · obtain ⟨a, ha⟩ := hcell
        exact (hR.cell a x ha).1 hd
      · refine hlive x hx ?_
        rw [hR.rest x fun a ha => hcell ⟨a, ha⟩]; exact hd
  · funext x
    by_cases hx : x ∈ H
    · rw [cut_in hx, cut_in (.inr hx)]
    · rw [cut_out hx]
      by_cases hcell : ∃ a, x ∈ cellsAt w.arrs a
      · rw [cut_in (.inl hcell)]
        obtain ⟨a, ha⟩ := hcell
        exact (hR.cell a x ha).2
      · rw [cut_out (by rintro (h | h); exact hcell h; exact hx h)]
        exact hR.rest x fun a ha => hcell ⟨a, ha⟩
  · intro a xs ha
    have := hA.agrees (val_valid c) (val_phys hc) a
    rw [ha] at this
    refine ⟨?_, fun i y hy => ?_⟩
    · have hl := this.1
      unfold Rca.length at hl ⊢
      obtain ⟨ob, s1, h1, h2⟩ := bind_inv hl
      obtain ⟨rfl, ho⟩ := getObj_inv h1
      rw [hR.like.obj] at ho
      rw [bind_ok (getObj_eq ho)]
      change Bdlib.Res.ok _ _ = _ at h2
      simp only [Bdlib.Res.ok.injEq, and_true] at h2
      show Bdlib.Res.ok ob.sublen _ = _
      rw [h2]
    · obtain ⟨hi, rfl⟩ := List.getElem?_eq_some_iff.mp hy
      have hrd := this.2 i hi
      rw [List.getElem?_eq_getElem hi] at hrd
      unfold Rca.read at hrd
      obtain ⟨ys, s1, hx, hx'⟩ := bind_inv hrd
      obtain ⟨rfl, t, b, B, ob, _, _, hb, _, _, _, hcell, rfl, hm⟩ := cell_ok hR hx
      refine ⟨t, hcell, .inl ⟨b, ?_⟩, ?_⟩
      · unfold cellsAt; rw [hb]; exact hm
      · change Bdlib.Res.ok (some _) _ = _ at hx'
        simp only [Bdlib.Res.ok.injEq, Option.some.injEq, and_true] at hx'
        exact hx'
  · intro a b xs ys ha hb
    have := runs_sameStart (E := fun _ _ => False) (val_valid c) (val_phys hc) hA ha hb
    unfold Runs at this
    cases hs : sameStart a b σ with
    | ub => rw [hs] at this; exact this.elim
    | throw e σ' => rw [hs] at this; obtain ⟨_, h, _⟩ := this; exact h.elim
    | ok r σ' =>
      rw [hs] at this
      obtain ⟨env', ⟨h, -⟩, -⟩ := this
      refine ⟨r, ?_, h⟩
      unfold sameStart at hs ⊢
      obtain ⟨x, s1, h1, h2⟩ := bind_inv hs
      obtain ⟨rfl, hx⟩ := getObj_inv h1
      obtain ⟨y, s1, h3, h4⟩ := bind_inv h2
      obtain ⟨rfl, hy⟩ := getObj_inv h3
      rw [hR.like.obj] at hx hy
      rw [bind_ok (getObj_eq hx), bind_ok (getObj_eq hy)]
      change Bdlib.Res.ok _ _ = _ at h4
      simp only [Bdlib.Res.ok.injEq] at h4
      show Bdlib.Res.ok _ _ = _
      rw [h4.1]
  · intro s' env' hr hsame
    have hcells : ∀ a x, x ∈ cellsAt w.arrs a → env' x = env x := fun a x hx => hsame x (.inl ⟨a, hx⟩)
    have hHc : ∀ x ∈ H, ¬ ∃ a, x ∈ cellsAt w.arrs a := fun x hx ⟨a, ha⟩ => hlive x hx (hR.cell a x ha).2
    refine ⟨cut (fun x => ∃ a, x ∈ cellsAt w.arrs a) env', H, hnd, hlen, fun x hx => ?_, ?_, σ, ⟨env', hr, ?_, hR.nodup, hR.disj, ?_, ?_⟩, hA⟩
    · rw [cut_out (hHc x hx), hsame x (.inr hx), ← hR.rest x fun a ha => hHc x hx ⟨a, ha⟩]
      exact hlive x hx
    · funext x
      by_cases hx : x ∈ H
      · rw [cut_in hx, cut_in (.inr hx)]
      · rw [cut_out hx]
        by_cases hcell : ∃ a, x ∈ cellsAt w.arrs a
        · rw [cut_in (.inl hcell), cut_in (C := fun x => ∃ a, x ∈ cellsAt w.arrs a) hcell]
        · rw [cut_out (C := fun x => ∃ a, x ∈ cellsAt w.arrs a) hcell, cut_out (by rintro (h | h); exact hcell h; exact hx h)]
    · refine ⟨fun a => ?_, hR.like.len, hR.like.objs, hR.like.gen⟩
      rw [hR.like.blk]
      cases hb : w.arrs.blk a with
      | none => rfl
      | some b =>
        show some (mapBlk _ _) = some (mapBlk _ _)
        unfold mapBlk
        congr 2
        refine List.map_congr_left fun x hx => (hcells a x ?_).symm
        unfold cellsAt; rw [hb]; exact hx
    · intro a x hx
      exact ⟨by rw [hcells a x hx]; exact (hR.cell a x hx).1, cut_in ⟨a, hx⟩⟩
    · intro x hx
      exact cut_out fun ⟨a, ha⟩ => hx a ha

variable {C : Nat → Prop} {env : Env UInt8}

theorem View.val (h : View c w es ea lost C env) {t : Nat} {v : List UInt8} (ht : es t = .val v) : env t = .val v ∧ ¬ C t := by
  have hn : ¬ C t := fun hC => by rw [h.mine, cut_in hC] at ht; cases ht
  rw [h.mine, cut_out hn] at ht
  exact ⟨ht, hn⟩

/-- A program on strings alone, which may read the elements of arrays but changes none of them. -/
theorem ends_strs {m : M UInt8 β} (h : View c w es ea lost C env)
    (hm : Runs c.str m w.strs (fun a env' => (∀ x, C x → env' x = env x) ∧ Q a (cut C env') ea)
        (fun e env' => (∀ x, C x → env' x = env x) ∧ E e (cut C env') ea)) : Ends c lost (P.strs m) w Q E := by
  unfold Ends P.strs
  unfold Runs at hm
  cases hs : m w.strs with
  | ub => rw [hs] at hm; exact hm
  | ok a s' => rw [hs] at hm; obtain ⟨env', ⟨h1, h2⟩, h3, _⟩ := hm; exact ⟨_, _, h.back s' env' h3 h1, h2⟩
  | throw e s' => rw [hs] at hm; obtain ⟨env', ⟨h1, h2⟩, h3, _⟩ := hm; exact ⟨_, _, h.back s' env' h3 h1, h2⟩

/-- A program that only looks at strings. -/
theorem ends_look {m : M UInt8 β} {p : β → Prop} (h : View c w es ea lost C env)
    (hm : Runs c.str m w.strs (fun a env' => p a ∧ env' = env) (fun _ _ => False)) :
    Ends c lost (P.strs m) w (fun a es' ea' => p a ∧ es' = es ∧ ea' = ea) E :=
  ends_strs h (Runs.mono hm (fun a env' ⟨h1, h2⟩ => by subst h2; exact ⟨fun _ _ => rfl, h1, h.mine.symm, rfl⟩) fun _ _ h => h.elim)

/-- A program that makes a string. -/
theorem ends_make {m : M UInt8 Nat} {v : List UInt8} (h : View c w es ea lost C env)
    (hm : Runs c.str m w.strs (fun t env' => env t = .dead ∧ env' = env.upd t (.val v)) (fun e env' => e = .badAlloc ∧ env' = env)) :
    Ends c lost (P.strs m) w (fun t es' ea' => es t = .dead ∧ es' = es.upd t (.val v) ∧ ea' = ea)
      (fun e es' ea' => e = .badAlloc ∧ es' = es ∧ ea' = ea) := by
  refine ends_strs h (Runs.mono hm (fun t env' ⟨h1, h2⟩ => ?_) fun e env' ⟨h1, h2⟩ => ?_)
  · subst h2
    have hn : ¬ C t := fun hC => h.live t hC h1
    refine ⟨fun x hx => Env.upd_ne fun e => hn (e ▸ hx), ?_, ?_, rfl⟩
    · rw [h.mine, cut_out hn, h1]
    · rw [h.mine, cut_upd hn]
  · subst h2
    exact ⟨fun _ _ => rfl, h1, h.mine.symm, rfl⟩

theorem ends_delete (hc : c.Good) (h : All c w es ea lost) {t : Nat} (ht : es.Live t) :
    Ends c lost (delete c t) w (fun _ es' ea' => es' = es.upd t .dead ∧ ea' = ea) E := by
  obtain ⟨C, env, hV⟩ := all_view hc h
  rw [hV.mine] at ht
  refine ends_strs hV (Runs.mono (runs_destroy hc.valid hc.phys hV.reach (live_cut ht) (E := fun _ _ => False))
    (fun _ env' e => ?_) fun _ _ h => h.elim)
  subst e
  have hn := cut_live ht
  exact ⟨fun x hx => Env.upd_ne fun e => hn (e ▸ hx), by rw [hV.mine, cut_upd hn], rfl⟩

theorem pmap_map {γ : Type} {m : P α} {g : α → β} {f : β → γ} :
    (do let x ← (do let y ← m; Pure.pure (g y)); Pure.pure (f x)) = (do let y ← m; Pure.pure (f (g y)) : P γ) := by
  funext w
  show P.bind (P.bind m _) _ w = P.bind m _ w
  simp only [P.bind]
  cases m w <;> rfl

/-- A new array. -/
theorem ends_ctor (hc : c.Good) (h : All c w es ea lost) : Ends c lost (P.arrs Rca.ctor) w
    (fun a es' ea' => ea a = .dead ∧ es' = es ∧ ea' = ea.upd a (.val [])) E := by
  refine ends_call hc h (call := .arr .ctor) (f := fun o => .a (.obj o)) pmap_map (fun _ => rfl) ⟨trivial, trivial⟩ ?_ ?_
  · rintro a es' ea' ⟨o, ⟨b, h1, rfl, rfl⟩, h3, rfl⟩
    cases h3
    exact ⟨h1, rfl, rfl⟩
  · rintro e es' ea' ⟨o, ⟨b, h1, rfl, rfl⟩, h3, rfl⟩
    cases h3

theorem ends_destroy (hc : c.Good) (h : All c w es ea lost) {a : Nat} (ha : ea.Live a) : Ends c lost (destroy c a) w
    (fun _ es' ea' => es' = es ∧ ea' = ea.upd a .dead) E := by
  refine ends_call hc h (call := .arr (.destroy a)) (f := fun _ => .a .unit) pmap_map (fun _ => rfl) ⟨trivial, ha⟩ ?_ ?_
  · rintro _ es' ea' ⟨o, ⟨rfl, rfl⟩, h3, rfl⟩
    exact ⟨rfl, rfl⟩
  · rintro e es' ea' ⟨o, ⟨rfl, rfl⟩, h3, rfl⟩
    cases h3

theorem ends_length (hc : c.Good) (h : All c w es ea lost) {a : Nat} {xs : List Elem} (ha : ea a = .val xs) :
    Ends c lost (P.arrs (Rca.length a)) w (fun n es' ea' => n = xs.length ∧ es' = es ∧ ea' = ea) E := by
  obtain ⟨C, env, hV⟩ := all_view hc h
  unfold Ends P.arrs
  rw [(hV.arr a xs ha).1]
  exact ⟨es, ea, h, rfl, rfl, rfl⟩

/-- `a << t` -/
theorem ends_append (hc : c.Good) (h : All c w es ea lost) {a t : Nat} {xs : List Elem} (ha : ea a = .val xs) (ht : es.Live t) :
    Ends c lost (append c a t) w (fun _ es' ea' => es' = es ∧ ea' = ea.upd a (.val (xs ++ [es t])))
      (fun e es' ea' => e = .badAlloc ∧ es' = es ∧ (ea' = ea ∨ ea' = ea.upd a (.val []))) := by
  have hget : ea.get a = xs := by unfold Env.get; rw [ha]
  refine ends_call hc h (call := .append a t) (f := fun _ => .a .unit) rfl (fun _ => rfl) ⟨⟨xs, ha⟩, ht⟩ ?_ ?_
  · rintro _ es' ea' ⟨o, h1 | h1, h3, rfl⟩
    · obtain ⟨rfl, rfl⟩ := h1
      exact ⟨rfl, by rw [hget]⟩
    · obtain ⟨rfl, _⟩ := h1
      cases h3
  · rintro e es' ea' ⟨o, h1 | h1, h3, rfl⟩
    · obtain ⟨rfl, rfl⟩ := h1
      cases h3
    · obtain ⟨rfl, h2⟩ := h1
      cases h3
      refine ⟨rfl, rfl, ?_⟩
      rw [h2]
      split
      · exact .inr rfl
      · exact .inl rfl

end

end Bdlib.Nest
