import Verif.Nest.Logic
import Verif.Nest.TextSpec
import Verif.Prog.Pieces
import Verif.Props.C65
import Verif.Props.C20

/-!
# split, join and the searches: proofs

The programs on both memories give what the functions on values give.
-/

namespace Bdlib.Nest
open Bdlib Bdlib.Spec Bdlib.Rca Bdlib.Str

variable {c : Conf} {w : World} {es : Env UInt8} {ea : Env Elem} {lost : Nat}

/-- Nothing changed but memory ran out. -/
def Full (es : Env UInt8) (ea : Env Elem) (e : Exc) (es' : Env UInt8) (ea' : Env Elem) : Prop :=
  e = .badAlloc ∧ es' = es ∧ ea' = ea

section
variable {β : Type} {Q : β → Env UInt8 → Env Elem → Prop} {E : Exc → Env UInt8 → Env Elem → Prop}

theorem ends_withString (hc : c.Good) {mk : P Nat} {body : Nat → P β} {v : Bytes}
    (hmk : Ends c lost mk w (fun t es' ea' => es t = .dead ∧ es' = es.upd t (.val v) ∧ ea' = ea) E)
    (hbody : ∀ t w', es t = .dead → All c w' (es.upd t (.val v)) ea lost →
      Ends c lost (body t) w' (fun a es' ea' => es'.Live t ∧ Q a (es'.upd t .dead) ea')
        (fun e es' ea' => es'.Live t ∧ E e (es'.upd t .dead) ea')) :
    Ends c lost (withString c mk body) w Q E := by
  unfold withString
  refine Ends.bind hmk fun t w1 es1 ea1 h1 ⟨hd, e1, e2⟩ => ?_
  subst es1 ea1
  refine Ends.bind (Ends.onThrow (hbody t w1 hd h1) fun e w' es' ea' h' hE => ?_) fun a w2 es2 ea2 h2 hq => ?_
  · exact Ends.mono (ends_delete hc h' hE.1 (E := fun _ _ _ => False)) (fun _ _ _ ⟨e1, e2⟩ => by rw [e1, e2]; exact hE.2) fun _ _ _ h => h
  · refine Ends.bind (ends_delete hc h2 hq.1) fun _ w3 es3 ea3 h3 ⟨e1, e2⟩ => ?_
    subst es3 ea3
    exact Ends.pure h3 hq.2

theorem ends_buildArray (hc : c.Good) (h : All c w es ea lost) {body : Nat → P Unit} {Q : Nat → Env UInt8 → Env Elem → Prop}
    (hbody : ∀ a w', ea a = .dead → All c w' es (ea.upd a (.val [])) lost →
      Ends c lost (body a) w' (fun _ es' ea' => Q a es' ea') (fun e es' ea' => ea'.Live a ∧ E e es' (ea'.upd a .dead))) :
    Ends c lost (buildArray c body) w Q E := by
  unfold buildArray
  refine Ends.bind (ends_ctor hc h) fun a w1 es1 ea1 h1 ⟨hd, e1, e2⟩ => ?_
  subst es1 ea1
  refine Ends.bind (Ends.onThrow (hbody a w1 hd h1) fun e w' es' ea' h' hE => ?_) fun _ w2 es2 ea2 h2 hq => ?_
  · exact Ends.mono (ends_destroy hc h' hE.1 (E := fun _ _ _ => False)) (fun _ _ _ ⟨e1, e2⟩ => by rw [e1, e2]; exact hE.2) fun _ _ _ h => h
  · exact Ends.pure h2 hq

end

theorem upd_dead_self {T : Type} [DecidableEq T] {env : Env T} {o : Nat} (h : env o = .dead) (y : Slot T) : (env.upd o y).upd o .dead = env := by
  rw [Env.upd_upd]
  funext x
  by_cases e : x = o
  · subst e; rw [Env.upd_self, h]
  · rw [Env.upd_ne e]

/-! ## split -/

theorem ends_putPiece (hc : c.Good) (h : All c w es ea lost) {o a : Nat} {v : Bytes} {xs : List Elem} {start len : Int}
    (ho : es o = .val v) (ha : ea a = .val xs) (hs : SliceOk v.length start len) :
    Ends c lost (putPiece c o a start len) w
      (fun _ es' ea' => es' = es ∧ ea' = ea.upd a (.val (xs ++ [.val (sliceSpec v start len)])))
      (fun e es' ea' => e = .badAlloc ∧ es' = es ∧ (ea' = ea ∨ ea' = ea.upd a (.val []))) := by
  unfold putPiece
  obtain ⟨C, env, hV⟩ := all_view hc h
  refine ends_withString (es := es) (ea := ea) hc (v := sliceSpec v start len) ?_ fun t w1 hd h1 => ?_
  · exact Ends.mono (ends_make hV (runs_substring hc.valid hc.phys hV.reach (hV.val ho).1 hs)) (fun _ _ _ h => h)
      fun _ _ _ ⟨h1, h2, h3⟩ => ⟨h1, h2, .inl h3⟩
  · have hlive : (es.upd t (.val (sliceSpec v start len))).Live t := live_val Env.upd_self
    refine Ends.mono (ends_append hc h1 ha hlive) (fun _ es' ea' ⟨e1, e2⟩ => ?_) fun e es' ea' ⟨e0, e1, e2⟩ => ?_
    · subst e1 e2
      refine ⟨hlive, upd_dead_self hd _, ?_⟩
      rw [Env.upd_self]
    · subst e1
      exact ⟨hlive, e0, upd_dead_self hd _, e2⟩

/-- The array under construction is the only thing that changed. -/
def Spoilt (es : Env UInt8) (ea : Env Elem) (a : Nat) (e : Exc) (es' : Env UInt8) (ea' : Env Elem) : Prop :=
  e = .badAlloc ∧ es' = es ∧ ∃ ys, ea' = ea.upd a (.val ys)

theorem spoilt_of {a : Nat} {e : Exc} {es' : Env UInt8} {ea1 ea' : Env Elem} {xs : List Elem} (h1 : ea1 = ea.upd a (.val xs))
    (h : e = .badAlloc ∧ es' = es ∧ (ea' = ea1 ∨ ea' = ea1.upd a (.val []))) : Spoilt es ea a e es' ea' := by
  obtain ⟨h2, h3, h4 | h4⟩ := h
  · exact ⟨h2, h3, xs, h4.trans h1⟩
  · exact ⟨h2, h3, [], by rw [h4, h1, Env.upd_upd]⟩

theorem ends_splitLoop (hc : c.Good) {L : Libc} {o delim a cap : Nat} {v d : Bytes} (ho : es o = .val v) (hd : es delim = .val d)
    (hl : v.length ≤ maxInt) : ∀ (fuel it : Nat) (vs : List Bytes) {it' : Nat} {vs' : List Bytes} {w : World},
      All c w es (ea.upd a (.val (elems vs))) lost → Str.splitLoop L v d cap fuel it vs = .ret (it', vs') →
      Ends c lost (splitLoop c L o delim a cap fuel it) w
        (fun r es' ea' => r = it' ∧ es' = es ∧ ea' = ea.upd a (.val (elems vs'))) (Spoilt es ea a) := by
  intro fuel
  induction fuel with
  | zero => intro it vs it' vs' w _ hf; cases hf
  | succ fuel ih =>
    intro it vs it' vs' w h hf
    unfold Str.splitLoop at hf
    unfold splitLoop
    refine Ends.bind (ends_length hc h Env.upd_self) fun n w1 es1 ea1 h1 ⟨e0, e1, e2⟩ => ?_
    subst n es1 ea1
    rw [show (elems vs).length = vs.length by simp [elems]]
    by_cases hcap : ¬ vs.length < cap
    · rw [if_pos hcap] at hf ⊢
      cases hf
      exact Ends.pure h1 ⟨rfl, rfl, rfl⟩
    · rw [if_neg hcap] at hf ⊢
      obtain ⟨C, env, hV⟩ := all_view hc h1
      refine Ends.bind (ends_look hV (runs_contents hc.valid hc.phys hV.reach (hV.val ho).1)) fun v1 w2 es2 ea2 h2 ⟨e0, e1, e2⟩ => ?_
      subst v1 es2 ea2
      obtain ⟨C, env, hV⟩ := all_view hc h2
      refine Ends.bind (ends_look hV (runs_contents hc.valid hc.phys hV.reach (hV.val hd).1)) fun d1 w3 es3 ea3 h3 ⟨e0, e1, e2⟩ => ?_
      subst d1 es3 ea3
      dsimp only at hf ⊢
      by_cases hi : trimIt v d it ≥ v.length
      · rw [if_pos hi] at hf ⊢
        cases hf
        exact Ends.pure h3 ⟨rfl, rfl, rfl⟩
      · rw [if_neg hi] at hf ⊢
        cases hfi : Str.find_ L v d (trimIt v d it) with
        | exc e => rw [hfi] at hf; cases hf
        | ub => rw [hfi] at hf; cases hf
        | more => rw [hfi] at hf; cases hf
        | ret p =>
          rw [hfi, Eff.ret_bind] at hf
          obtain ⟨C, env, hV⟩ := all_view hc h3
          refine Ends.bind (ends_look hV (runs_liftE rfl hV.reach)) fun p' w4 es4 ea4 h4 ⟨e0, e1, e2⟩ => ?_
          subst p' es4 ea4
          have hq : (if p = npos then v.length - trimIt v d it else p) ≤ v.length := by
            rcases find_le hfi with h | h
            · rw [if_pos h]; omega
            · split <;> omega
          generalize (if p = npos then v.length - trimIt v d it else p) = q at hf hq ⊢
          rw [slice_nat hl hq, Eff.ret_bind] at hf
          refine Ends.bind (Ends.mono (ends_putPiece hc h4 ho Env.upd_self (sliceOk_nat (i := trimIt v d it) hl hq)) (fun _ _ _ h => h)
            fun e es' ea' h => spoilt_of rfl h) fun _ w5 es5 ea5 h5 ⟨e1, e2⟩ => ?_
          subst es5 ea5
          refine ih _ _ ?_ hf
          rw [sliceSpec_nat, Env.upd_upd] at h5
          simpa [elems] using h5

/-- `split` makes an array of the pieces; if memory runs out, everything is as before. -/
theorem ends_split (hc : c.Good) (hn : c.str.nul = some 0) (h : All c w es ea lost) {L : Libc} {fuel o delim limit : Nat} {v d : Bytes}
    {vs : List Bytes} (ho : es o = .val v) (hd : es delim = .val d) (hl : v.length ≤ maxInt) (hf : Str.split L fuel v d limit = .ret vs) :
    Ends c lost (split c L fuel o delim limit) w (fun a es' ea' => ea a = .dead ∧ es' = es ∧ ea' = ea.upd a (.val (elems vs)))
      (Full es ea) := by
  unfold split
  unfold Str.split at hf
  obtain ⟨C, env, hV⟩ := all_view hc h
  refine Ends.bind (ends_look hV (runs_length hc.valid hc.phys hV.reach (hV.val ho).1)) fun n w1 es1 ea1 h1 ⟨e0, e1, e2⟩ => ?_
  subst n es1 ea1
  obtain ⟨C, env, hV⟩ := all_view hc h1
  by_cases h0 : v.length = 0
  · rw [if_pos h0] at hf ⊢
    cases hf
    exact ends_ctor hc h1
  rw [if_neg h0] at hf ⊢
  by_cases hone : limit = 1
  · rw [if_pos hone] at hf ⊢
    cases hf
    refine ends_withString (es := es) (ea := ea) hc (v := v) (E := Full es ea) ?_ fun t w2 hdt h2 => ?_
    · exact ends_make hV (runs_copyCtor hc.valid hc.phys hV.reach (hV.val ho).1)
    · have hlive : (es.upd t (.val v)).Live t := live_val Env.upd_self
      refine ends_call hc h2 (call := .listCtor [t]) (f := fun a => .a (.obj a)) rfl (fun _ => rfl) ?_ ?_ ?_
      · intro x hx
        rw [List.mem_singleton.mp hx]; exact hlive
      · rintro a es' ea' ⟨x, h3 | h3, h4, rfl⟩
        · obtain ⟨b, hb, rfl, rfl⟩ := h3
          cases h4
          refine ⟨hlive, hb, upd_dead_self hdt _, ?_⟩
          simp [elems, Env.upd_self]
        · obtain ⟨rfl, -⟩ := h3
          cases h4
      · rintro e es' ea' ⟨x, h3 | h3, h4, rfl⟩
        · obtain ⟨b, hb, rfl, rfl⟩ := h3
          cases h4
        · obtain ⟨rfl, rfl⟩ := h3
          cases h4
          exact ⟨hlive, rfl, upd_dead_self hdt _, rfl⟩
  rw [if_neg hone] at hf ⊢
  cases hlp : Str.splitLoop L v d (sub64 limit 1) fuel 0 [] with
  | exc e => rw [hlp] at hf; cases hf
  | ub => rw [hlp] at hf; cases hf
  | more => rw [hlp] at hf; cases hf
  | ret x =>
    obtain ⟨it, vs1⟩ := x
    rw [hlp, Eff.ret_bind] at hf
    dsimp only at hf
    refine ends_withString (es := es) (ea := ea) hc (v := [32]) (E := Full es ea) ?_ fun t w2 hdt h2 => ?_
    · exact ends_make hV (runs_charCtor hc.valid hc.phys hn hV.reach 32 ⟨rfl, rfl⟩)
    have hot : (es.upd t (.val [32])) o = .val v := by rw [Env.upd_ne (dead_ne hdt (live_val ho)), ho]
    have hdt' : (es.upd t (.val [32])) delim = .val d := by rw [Env.upd_ne (dead_ne hdt (live_val hd)), hd]
    have hlive : (es.upd t (.val [32])).Live t := live_val Env.upd_self
    refine ends_buildArray hc h2 fun a w3 hda h3 => ?_
    have fin : ∀ {e : Exc} {es' : Env UInt8} {ea' : Env Elem}, Spoilt (es.upd t (.val [32])) ea a e es' ea' →
        ea'.Live a ∧ es'.Live t ∧ Full es ea e (es'.upd t .dead) (ea'.upd a .dead) := by
      rintro e es' ea' ⟨h1, rfl, ys, rfl⟩
      exact ⟨live_val Env.upd_self, hlive, h1, upd_dead_self hdt _, upd_dead_self hda _⟩
    refine Ends.bind (Ends.mono (ends_splitLoop hc hot hdt' hl fuel 0 [] h3 hlp) (fun _ _ _ h => h) fun _ _ _ h => fin h)
      fun it' w4 es4 ea4 h4 ⟨e0, e1, e2⟩ => ?_
    subst it' es4 ea4
    unfold splitRest
    by_cases hlim : limit ≠ npos
    · rw [if_pos hlim] at hf ⊢
      obtain ⟨C, env, hV⟩ := all_view hc h4
      refine Ends.bind (ends_look hV (runs_contents hc.valid hc.phys hV.reach (hV.val hot).1)) fun v1 w5 es5 ea5 h5 ⟨e0, e1, e2⟩ => ?_
      subst v1 es5 ea5
      obtain ⟨C, env, hV⟩ := all_view hc h5
      refine Ends.bind (ends_look hV (runs_contents hc.valid hc.phys hV.reach (hV.val hdt').1)) fun d1 w6 es6 ea6 h6 ⟨e0, e1, e2⟩ => ?_
      subst d1 es6 ea6
      rw [slice_rest hl, Eff.ret_bind] at hf
      cases hf
      refine Ends.mono (ends_putPiece hc h6 hot Env.upd_self (sliceOk_rest (i := trimIt v d it) hl)) (fun _ es' ea' h => ?_)
        fun _ _ _ h => fin (spoilt_of rfl h)
      obtain ⟨rfl, rfl⟩ := h
      refine ⟨hlive, hda, upd_dead_self hdt _, ?_⟩
      rw [sliceSpec_rest, Env.upd_upd]
      simp [elems]
    · rw [if_neg hlim] at hf ⊢
      cases hf
      exact Ends.pure h4 ⟨hlive, hda, upd_dead_self hdt _, rfl⟩

/-! ## join -/

theorem cells_eq {C : Nat → Prop} {env : Env UInt8} (h : View c w es ea lost C env) {a : Nat} {xs : List Elem} (ha : ea a = .val xs) :
    ∀ (k i : Nat), i + k = xs.length → ∃ hs, cells a i k w = .ok hs w ∧ hs.map env = xs.drop i
  | 0, i, hi => ⟨[], rfl, by rw [List.drop_eq_nil_of_le (by omega)]; rfl⟩
  | k + 1, i, hi => by
    have hlt : i < xs.length := by omega
    obtain ⟨t, h1, _, h3⟩ := (h.arr a xs ha).2 i _ (List.getElem?_eq_getElem hlt)
    obtain ⟨hs, h4, h5⟩ := cells_eq h ha k (i + 1) (by omega)
    refine ⟨t :: hs, ?_, ?_⟩
    · unfold cells
      rw [pbind_ok h1, pbind_ok h4]
      rfl
    · rw [List.drop_eq_getElem_cons hlt, ← h5, ← h3]; rfl

theorem ends_join (hc : c.Good) (hn : c.str.nul = some 0) (h : All c w es ea lost) {a delim : Nat} {quoted : Bool} {vs : List Bytes}
    {d r : Bytes} (ha : ea a = .val (elems vs)) (hd : es delim = .val d) (hf : Str.join vs d quoted = .ret r) :
    Ends c lost (join c a delim quoted) w (fun t es' ea' => es t = .dead ∧ es' = es.upd t (.val r) ∧ ea' = ea) (Full es ea) := by
  unfold join
  refine Ends.bind (ends_length hc h ha) fun n w1 es1 ea1 h1 ⟨e0, e1, e2⟩ => ?_
  subst n es1 ea1
  obtain ⟨C, env, hV⟩ := all_view hc h1
  obtain ⟨hs, h2, h3⟩ := cells_eq hV ha (elems vs).length 0 (by omega)
  have : ∀ f : List Nat → P Nat, ((cells a 0 (elems vs).length >>= f) w1) = f hs w1 := fun f => pbind_ok h2
  unfold Ends
  rw [this]
  exact ends_make hV (runs_joinP hc.valid hc.phys hn hV.reach h3 (hV.val hd).1 hf)

/-! ## Looking at elements -/

/-- The program looks at strings and arrays and answers `x`; it changes nothing. -/
def Looks {β : Type} (c : Conf) (lost : Nat) (m : P β) (w : World) (es : Env UInt8) (ea : Env Elem) (p : β → Prop) : Prop :=
  ∀ E, Ends c lost m w (fun a es' ea' => p a ∧ es' = es ∧ ea' = ea) E

theorem Looks.bind {β γ : Type} {m : P β} {f : β → P γ} {p : β → Prop} {q : γ → Prop} (h : Looks c lost m w es ea p)
    (hf : ∀ a w', All c w' es ea lost → p a → Looks c lost (f a) w' es ea q) : Looks c lost (m >>= f) w es ea q := fun E =>
  Ends.bind (h E) fun a w' es' ea' hA ⟨h1, h2, h3⟩ => by subst es' ea'; exact hf a w' hA h1 E

theorem Looks.pure {β : Type} {a : β} {p : β → Prop} (h : All c w es ea lost) (hp : p a) : Looks c lost (Pure.pure a) w es ea p :=
  fun _ => Ends.pure h ⟨hp, rfl, rfl⟩

theorem Looks.mono {β : Type} {m : P β} {p q : β → Prop} (h : Looks c lost m w es ea p) (hq : ∀ a, p a → q a) :
    Looks c lost m w es ea q := fun E => Ends.mono (h E) (fun _ _ _ ⟨h1, h2⟩ => ⟨hq _ h1, h2⟩) fun _ _ _ h => h

theorem runs_eqP {cfg : Cfg UInt8} {s : St UInt8} {env : Env UInt8} {E : Exc → Env UInt8 → Prop} (hv : cfg.Valid) (hp : cfg.Physical)
    {L : Libc} (hL : L.Ok) (hr : Reach cfg s env) {a b : Nat} {v w : Bytes} (ha : env a = .val v) (hb : env b = .val w) :
    Runs cfg (eqP L a b) s (fun x env' => x = decide (v = w) ∧ env' = env) E := by
  obtain ⟨s', h1, _, h2⟩ := c65_eq hv hp hL hr ha hb
  unfold eqP
  refine Runs.bind (runs_length hv hp hr ha) fun n s1 env1 hr1 e => ?_
  obtain ⟨e1, rfl⟩ := e
  subst n
  refine Runs.bind (runs_length hv hp hr1 hb) fun n s2 env2 hr2 e => ?_
  obtain ⟨e1, rfl⟩ := e
  subst n
  by_cases hl : v.length = w.length
  · rw [if_pos hl]
    refine Runs.bind (runs_compare_sign hv hp hL hr2 ha hb ⟨by omega, by omega⟩) fun r s3 env3 hr3 e => ?_
    obtain ⟨hs, rfl⟩ := e
    exact Runs.pure hr3 ⟨decide_eq_decide.mpr hs.2.1, rfl⟩
  · rw [if_neg hl]
    exact Runs.pure hr2 ⟨by rw [decide_eq_false]; exact fun e => hl (by rw [e]), rfl⟩

theorem looks_cell (hc : c.Good) (h : All c w es ea lost) {a i : Nat} {vs : List Bytes} (ha : ea a = .val (elems vs)) {v : Bytes}
    (hi : vs[i]? = some v) {γ : Type} {f : Nat → P γ} {p : γ → Prop}
    (hf : ∀ t C env, View c w es ea lost C env → env t = .val v → Looks c lost (f t) w es ea p) :
    Looks c lost (cell a i >>= f) w es ea p := by
  obtain ⟨C, env, hV⟩ := all_view hc h
  obtain ⟨t, h1, _, h3⟩ := (hV.arr a _ ha).2 i (.val v) (by simp [elems, hi])
  intro E
  unfold Ends
  rw [pbind_ok h1]
  exact hf t C env hV h3 E

theorem looks_length (hc : c.Good) (h : All c w es ea lost) {a : Nat} {vs : List Bytes} (ha : ea a = .val (elems vs)) :
    Looks c lost (P.arrs (Rca.length a)) w es ea (· = vs.length) := fun E =>
  Ends.mono (ends_length hc h ha) (fun _ _ _ ⟨h1, h2⟩ => ⟨h1.trans (by simp [elems]), h2⟩) fun _ _ _ h => h

section
variable (hc : c.Good) {L : Libc} (hL : L.Ok)
include hc hL

theorem looks_findLoop {a h : Nat} {vs : List Bytes} {x : Bytes} (ha : ea a = .val (elems vs)) (hx : es h = .val x) :
    ∀ (k i : Nat) {w : World}, i + k = vs.length → All c w es ea lost → Looks c lost (findLoop L a h i k) w es ea
      (fun r => match r with
        | some m => Smallest (fun j => i ≤ j ∧ HoldsAt vs x j) m
        | none => ∀ j, i ≤ j → ¬ HoldsAt vs x j)
  | 0, i, w, hi, hA => Looks.pure hA fun j hj hh => by
      unfold HoldsAt at hh
      rw [List.getElem?_eq_none (by omega)] at hh; cases hh
  | k + 1, i, w, hi, hA => by
    have hlt : i < vs.length := by omega
    unfold findLoop
    refine looks_cell hc hA ha (List.getElem?_eq_getElem hlt) fun t C env hV ht => ?_
    refine Looks.bind (fun E => ends_look hV (runs_eqP hc.valid hc.phys hL hV.reach ht (hV.val hx).1)) fun r w' hA' hr => ?_
    subst hr
    by_cases he : vs[i] = x
    · simp only [he, decide_true, if_true]
      exact Looks.pure hA' ⟨⟨Nat.le_refl _, by unfold HoldsAt; rw [List.getElem?_eq_getElem hlt, he]⟩, fun j hj => hj.1⟩
    · simp only [he, decide_false]
      refine Looks.mono (looks_findLoop ha hx k (i + 1) (by omega) hA') fun r hr => ?_
      have hne : ∀ j, i ≤ j → HoldsAt vs x j → i + 1 ≤ j := fun j hj hh => by
        rcases Nat.lt_or_ge i j with h | h
        · exact h
        · have : j = i := by omega
          subst this
          unfold HoldsAt at hh
          rw [List.getElem?_eq_getElem hlt] at hh
          cases hh
          exact absurd rfl he
      cases r with
      | none => exact fun j hj hh => hr j (hne j hj hh) hh
      | some m => exact ⟨⟨by have := hr.1.1; omega, hr.1.2⟩, fun j hj => hr.2 j ⟨hne j hj.1 hj.2, hj.2⟩⟩

theorem looks_find_ {a h pos : Nat} {vs : List Bytes} {x : Bytes} (ha : ea a = .val (elems vs)) (hx : es h = .val x)
    (hp : pos ≤ vs.length) (hA : All c w es ea lost) :
    Looks c lost (find_ L a h pos) w es ea (Finds Smallest (fun d => HoldsAt vs x (pos + d)) npos) := by
  unfold find_
  have hsz : vs.length < maxCells := by
    obtain ⟨C, env, hV⟩ := all_view hc hA
    have := hV.size a _ ha
    simpa [elems] using this
  refine Looks.bind (looks_length hc hA ha) fun n w1 hA1 hn => ?_
  subst hn
  rw [if_neg (by omega)]
  refine Looks.bind (looks_findLoop hc hL ha hx (vs.length - pos) pos (by omega) hA1) fun r w2 hA2 hr => ?_
  cases r with
  | none => exact Looks.pure hA2 (.inr ⟨fun d hh => hr (pos + d) (by omega) hh, rfl⟩)
  | some m =>
    have hm : m < vs.length := (List.getElem?_eq_some_iff.mp hr.1.2).1
    have hle := hr.1.1
    refine Looks.pure hA2 (.inl ⟨⟨?_, fun d hd => ?_⟩, ?_⟩)
    · show HoldsAt vs x (pos + (m - pos))
      rw [show pos + (m - pos) = m by omega]; exact hr.1.2
    · have := hr.2 (pos + d) ⟨by omega, hd⟩
      omega
    · unfold maxCells at hsz; unfold npos; omega

theorem looks_find {a h : Nat} {vs : List Bytes} {x : Bytes} (ha : ea a = .val (elems vs)) (hx : es h = .val x)
    (hA : All c w es ea lost) : Looks c lost (find L a h) w es ea (Finds Smallest (HoldsAt vs x) npos) := by
  have := looks_find_ hc hL ha hx (Nat.zero_le _) hA
  simp only [Nat.zero_add] at this
  exact this

theorem looks_findFrom {a h pos : Nat} {vs : List Bytes} {x : Bytes} (ha : ea a = .val (elems vs)) (hx : es h = .val x)
    (hp : pos ≤ vs.length) (hA : All c w es ea lost) :
    Looks c lost (findFrom L a h pos) w es ea (Finds Smallest (fun d => HoldsAt vs x (pos + d)) npos) := by
  unfold findFrom
  by_cases h0 : pos ≠ 0
  · rw [if_pos h0]
    refine Looks.bind (p := fun _ => True) (fun E => ?_) fun _ w1 hA1 _ => looks_find_ hc hL ha hx hp hA1
    obtain ⟨C, env, hV⟩ := all_view hc hA
    have hlen := (hV.arr a _ ha).1
    unfold Ends P.arrs Rca.validateIndex
    rw [bind_ok hlen, if_neg (by simp [elems]; omega)]
    exact ⟨es, ea, hA, trivial, rfl, rfl⟩
  · rw [if_neg h0]
    exact Looks.bind (m := pure ()) (Looks.pure (p := fun _ => True) hA trivial) fun _ w1 hA1 _ => looks_find_ hc hL ha hx hp hA1

theorem looks_rfindLoop {a h : Nat} {vs : List Bytes} {x : Bytes} (ha : ea a = .val (elems vs)) (hx : es h = .val x)
    (hsz : vs.length < maxCells) : ∀ (k : Nat) {w : World}, k ≤ vs.length → All c w es ea lost → Looks c lost (rfindLoop L a h k) w es ea
      (Finds Largest (fun j => j < k ∧ HoldsAt vs x j) npos)
  | 0, w, _, hA => Looks.pure hA (.inr ⟨fun j hj => by omega, rfl⟩)
  | k + 1, w, hk, hA => by
    have hlt : k < vs.length := by omega
    unfold rfindLoop
    refine looks_cell hc hA ha (List.getElem?_eq_getElem hlt) fun t C env hV ht => ?_
    refine Looks.bind (fun E => ends_look hV (runs_eqP hc.valid hc.phys hL hV.reach ht (hV.val hx).1)) fun r w' hA' hr => ?_
    subst hr
    by_cases he : vs[k] = x
    · simp only [he, decide_true, if_true]
      refine Looks.pure hA' (.inl ⟨⟨⟨by omega, by unfold HoldsAt; rw [List.getElem?_eq_getElem hlt, he]⟩, fun j hj => by omega⟩, ?_⟩)
      unfold maxCells at hsz; unfold npos; omega
    · simp only [he, decide_false]
      refine Looks.mono (looks_rfindLoop ha hx hsz k (by omega) hA') fun r hr => ?_
      have hne : ∀ j, j < k + 1 → HoldsAt vs x j → j < k := fun j hj hh => by
        rcases Nat.lt_or_ge j k with h | h
        · exact h
        · have : j = k := by omega
          subst this
          unfold HoldsAt at hh
          rw [List.getElem?_eq_getElem hlt] at hh
          cases hh
          exact absurd rfl he
      rcases hr with ⟨⟨h1, h2⟩, h3⟩ | ⟨h1, h2⟩
      · exact .inl ⟨⟨⟨by omega, h1.2⟩, fun j hj => h2 j ⟨hne j hj.1 hj.2, hj.2⟩⟩, h3⟩
      · exact .inr ⟨fun j hj => h1 j ⟨hne j hj.1 hj.2, hj.2⟩, h2⟩

theorem looks_rfind {a h : Nat} {vs : List Bytes} {x : Bytes} (ha : ea a = .val (elems vs)) (hx : es h = .val x)
    (hA : All c w es ea lost) : Looks c lost (rfind L a h) w es ea (Finds Largest (HoldsAt vs x) npos) := by
  unfold rfind
  have hsz : vs.length < maxCells := by
    obtain ⟨C, env, hV⟩ := all_view hc hA
    have := hV.size a _ ha
    simpa [elems] using this
  refine Looks.bind (looks_length hc hA ha) fun n w1 hA1 hn => ?_
  subst hn
  refine Looks.mono (looks_rfindLoop hc hL ha hx hsz vs.length (Nat.le_refl _) hA1) fun r hr => ?_
  have hin : ∀ j, HoldsAt vs x j → j < vs.length := fun j hj => (List.getElem?_eq_some_iff.mp hj).1
  rcases hr with ⟨⟨h1, h2⟩, h3⟩ | ⟨h1, h2⟩
  · exact .inl ⟨⟨h1.2, fun j hj => h2 j ⟨hin j hj, hj⟩⟩, h3⟩
  · exact .inr ⟨fun j hj => h1 j ⟨hin j hj, hj⟩, h2⟩

theorem looks_equalsLoop {a b : Nat} {vs us : List Bytes} (ha : ea a = .val (elems vs)) (hb : ea b = .val (elems us)) :
    ∀ (k i : Nat) {w : World}, i + k ≤ vs.length → i + k ≤ us.length → All c w es ea lost → Looks c lost (equalsLoop L a b i k) w es ea
      (fun r => r = true ↔ (vs.drop i).take k = (us.drop i).take k)
  | 0, i, w, _, _, hA => Looks.pure hA (by simp)
  | k + 1, i, w, h1, h2, hA => by
    have hlt : i < vs.length := by omega
    have hlu : i < us.length := by omega
    unfold equalsLoop
    refine looks_cell hc hA ha (List.getElem?_eq_getElem hlt) fun t C env hV ht => ?_
    obtain ⟨t', h3, _, h4⟩ := (hV.arr b _ hb).2 i (.val us[i]) (by simp [elems, hlu])
    have : ∀ f : Nat → P Bool, ((cell b i >>= f) w) = f t' w := fun f => pbind_ok h3
    intro E
    unfold Ends
    rw [this]
    refine Looks.bind (fun E => ends_look hV (runs_eqP hc.valid hc.phys hL hV.reach ht h4)) (fun r w' hA' hr => ?_) E
    subst hr
    rw [List.drop_eq_getElem_cons hlt, List.drop_eq_getElem_cons hlu, List.take_succ_cons, List.take_succ_cons]
    by_cases he : vs[i] = us[i]
    · simp only [he, decide_true, if_true]
      refine Looks.mono (looks_equalsLoop ha hb k (i + 1) (by omega) (by omega) hA') fun r hr => ?_
      rw [hr]
      simp
    · simp only [he, decide_false]
      exact Looks.pure hA' (by simp [he])

theorem looks_equalsN {a b n : Nat} {vs us : List Bytes} (ha : ea a = .val (elems vs)) (hb : ea b = .val (elems us))
    (hA : All c w es ea lost) : Looks c lost (equalsN L a b n) w es ea
      (fun r => r = true ↔ vs.length = us.length ∧ vs.take n = us.take n) := by
  unfold equalsN
  refine Looks.bind (looks_length hc hA ha) fun la w1 hA1 h1 => ?_
  subst h1
  refine Looks.bind (looks_length hc hA1 hb) fun lb w2 hA2 h2 => ?_
  subst h2
  refine Looks.bind (p := fun r => r = true → vs.length = us.length → vs = us) (fun E => ?_) fun r w3 hA3 h3 => ?_
  · obtain ⟨C, env, hV⟩ := all_view hc hA2
    obtain ⟨r, h3, h4⟩ := hV.same a b _ _ ha hb
    unfold Ends P.arrs
    rw [h3]
    refine ⟨es, ea, hA2, fun hr hl => ?_, rfl, rfl⟩
    have := h4 hr (by simpa [elems] using hl)
    unfold elems at this
    exact (List.map_inj_right (fun _ _ h => by cases h; rfl)).mp this
  · by_cases hs : r = true ∧ vs.length = us.length
    · rw [if_pos hs]
      have := h3 hs.1 hs.2
      subst this
      exact Looks.pure hA3 (by simp)
    · rw [if_neg hs]
      by_cases hl : vs.length ≠ us.length
      · rw [if_pos hl]
        exact Looks.pure hA3 (by simp [hl])
      · rw [if_neg hl]
        have hl : vs.length = us.length := Classical.not_not.mp hl
        refine Looks.mono (looks_equalsLoop hc hL ha hb _ 0 (by omega) (by omega) hA3) fun r hr => ?_
        rw [hr, hl]
        simp only [List.drop_zero, Nat.min_self, true_and]
        rw [show min us.length (min us.length n) = min us.length n by omega]
        rcases Nat.le_total n us.length with h | h
        · rw [Nat.min_eq_right h]
        · rw [Nat.min_eq_left h, List.take_of_length_le (by omega), List.take_of_length_le (by omega),
            List.take_of_length_le (by omega), List.take_of_length_le h]

theorem looks_eq {a b : Nat} {vs us : List Bytes} (ha : ea a = .val (elems vs)) (hb : ea b = .val (elems us))
    (hA : All c w es ea lost) : Looks c lost (eq L a b) w es ea (· = decide (vs = us)) := by
  unfold eq
  refine Looks.bind (looks_length hc hA ha) fun la w1 hA1 h1 => ?_
  subst h1
  refine Looks.bind (looks_length hc hA1 hb) fun lb w2 hA2 h2 => ?_
  subst h2
  by_cases hl : vs.length = us.length
  · rw [if_pos hl]
    refine Looks.mono (looks_equalsN hc hL ha hb hA2) fun r hr => ?_
    rw [List.take_of_length_le (by omega), List.take_of_length_le (by omega)] at hr
    by_cases he : vs = us
    · rw [decide_eq_true he]; exact hr.mpr ⟨hl, he⟩
    · rw [decide_eq_false he]
      cases r with
      | false => rfl
      | true => exact absurd (hr.mp rfl).2 he
  · rw [if_neg hl]
    exact Looks.pure hA2 (by rw [decide_eq_false]; exact fun e => hl (by rw [e]))

end

end Bdlib.Nest
