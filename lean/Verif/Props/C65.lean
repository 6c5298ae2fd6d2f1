import Verif.Prog.Pieces
import Verif.Props.C07
import Verif.Props.C24
import Verif.Props.C28
import Verif.Props.C29
import Verif.Props.C30
import Verif.Props.C31
import Verif.Props.C32
import Verif.Props.C33
import Verif.Props.C34
import Verif.Props.C35

/-!
# C65: Compound String functions on shared storage

The functions that are made of other calls (`+`, `*`, `==`, `chomp`, `trim`, `newsplit`, `sub`, `subst`, `split`,
`join`, assignment to slices and elements), with their copies and temporaries, run on the memory model: in every
reachable state, whatever the objects share, the effect on values is the one the specification names, no other
object changes, no temporary stays behind, and after `bad_alloc` the objects are as they were.
-/

namespace Bdlib.Rca
open Bdlib Bdlib.Spec Bdlib.Str

section
variable {T : Type} [DecidableEq T] {α : Type}

/-- Every object shows what it showed before. -/
def AllKeep (env : Env T) (s' : St T) : Prop := ∀ p w, env p = .val w → Shows s' p w

/-- `bad_alloc`, because a request was refused on the way; every object is as it was. -/
def FailsClean (cfg : Cfg T) (s : St T) (env : Env T) (m : M T α) : Prop :=
  ∃ s', m s = .throw .badAlloc s' ∧ Refused cfg.allocOk s s' ∧ AllKeep env s' ∧ Reach cfg s' env

/-- The function returns a new object that shows `v`; every other object shows what it did, and no further object
exists. -/
def Yields (cfg : Cfg T) (s : St T) (env : Env T) (m : M T Nat) (v : List T) : Prop :=
  ∃ n s', m s = .ok n s' ∧ env n = .dead ∧ Shows s' n v ∧ AllKeep env s' ∧ Reach cfg s' (env.upd n (.val v))

/-- The function returns and `o` shows `v` afterwards; every other object shows what it did. -/
def Turns (cfg : Cfg T) (s : St T) (env : Env T) (m : M T Unit) (o : Nat) (v : List T) : Prop :=
  ∃ s', m s = .ok () s' ∧ Shows s' o v ∧ OthersKeep env o s' ∧ Reach cfg s' (env.upd o (.val v))

/-- `bad_alloc` in a function that changes `o`, because a request was refused: `o` is as it was or empty. -/
def FailsAt (cfg : Cfg T) (s : St T) (env : Env T) (m : M T α) (o : Nat) : Prop :=
  ∃ s', m s = .throw .badAlloc s' ∧ Refused cfg.allocOk s s' ∧ OthersKeep env o s' ∧
    (Reach cfg s' env ∨ Reach cfg s' (env.upd o (.val [])))

/-- The function returns `x`; no object changes. -/
def Answers (cfg : Cfg T) (s : St T) (env : Env T) (m : M T α) (x : α) : Prop :=
  ∃ s', m s = .ok x s' ∧ AllKeep env s' ∧ Reach cfg s' env

variable {cfg : Cfg T} {s : St T} {env : Env T}

theorem allKeep_reach (hv : cfg.Valid) (hp : cfg.Physical) {s' : St T} (h : Reach cfg s' env) : AllKeep env s' :=
  fun _ _ hw => h.shows hv hp hw

theorem answers_of (hv : cfg.Valid) (hp : cfg.Physical) {m : M T α} {x : α}
    (h : Runs cfg m s (fun y env' => y = x ∧ env' = env) (fun _ _ => False)) : Answers cfg s env m x := by
  unfold Runs at h
  cases hm : m s with
  | ub => rw [hm] at h; exact h.elim
  | throw e t => rw [hm] at h; obtain ⟨_, h, _⟩ := h; exact h.elim
  | ok a t =>
    rw [hm] at h
    obtain ⟨_, ⟨rfl, rfl⟩, h, _⟩ := h
    exact ⟨t, hm, allKeep_reach hv hp h, h⟩

theorem turns_of (hv : cfg.Valid) (hp : cfg.Physical) {m : M T Unit} {o : Nat} {v : List T}
    (h : Runs cfg m s (fun _ env' => env' = env.upd o (.val v)) (fun _ _ => False)) : Turns cfg s env m o v := by
  unfold Runs at h
  cases hm : m s with
  | ub => rw [hm] at h; exact h.elim
  | throw e t => rw [hm] at h; obtain ⟨_, h, _⟩ := h; exact h.elim
  | ok a t =>
    rw [hm] at h
    obtain ⟨_, rfl, h, _⟩ := h
    exact ⟨t, hm, h.shows hv hp Env.upd_self, fun p w hne hw => h.shows hv hp (by rw [Env.upd_ne hne]; exact hw), h⟩

theorem turns_or_of (hv : cfg.Valid) (hp : cfg.Physical) {m : M T Unit} {o : Nat} {v : List T}
    (h : Runs cfg m s (fun _ env' => env' = env.upd o (.val v)) (OnlyAt env o)) : Turns cfg s env m o v ∨ FailsAt cfg s env m o := by
  unfold Runs at h
  cases hm : m s with
  | ub => rw [hm] at h; exact h.elim
  | throw e t =>
    rw [hm] at h
    obtain ⟨env', h1, h2, -, h3⟩ := h
    obtain ⟨rfl, h1⟩ := h1
    refine Or.inr ⟨t, hm, h3 rfl, fun p w hne hw => h2.shows hv hp ?_, ?_⟩
    · rcases h1 with rfl | rfl
      · exact hw
      · rw [Env.upd_ne hne]; exact hw
    · rcases h1 with rfl | rfl
      · exact Or.inl h2
      · exact Or.inr h2
  | ok a t =>
    rw [hm] at h
    obtain ⟨_, rfl, h, _⟩ := h
    exact Or.inl ⟨t, hm, h.shows hv hp Env.upd_self, fun p w hne hw => h.shows hv hp (by rw [Env.upd_ne hne]; exact hw), h⟩

theorem yields_of (hv : cfg.Valid) (hp : cfg.Physical) {m : M T Nat} {v : List T} (h : Runs cfg m s (Returns env v) (NoMemory env)) :
    Yields cfg s env m v ∨ FailsClean cfg s env m := by
  unfold Runs at h
  cases hm : m s with
  | ub => rw [hm] at h; exact h.elim
  | throw e t =>
    rw [hm] at h
    obtain ⟨_, ⟨rfl, rfl⟩, h1, -, h2⟩ := h
    exact Or.inr ⟨t, hm, h2 rfl, allKeep_reach hv hp h1, h1⟩
  | ok n t =>
    rw [hm] at h
    obtain ⟨_, ⟨hd, rfl⟩, h, _⟩ := h
    exact Or.inl ⟨n, t, hm, hd, h.shows hv hp Env.upd_self,
      fun p w hw => h.shows hv hp (by rw [Env.upd_ne (dead_ne hd (live_val hw))]; exact hw), h⟩

/-- The function takes a piece off `o` and returns it as a new object. -/
def Peels (cfg : Cfg T) (s : St T) (env : Env T) (m : M T Nat) (o : Nat) (first rest : List T) : Prop :=
  ∃ n s', m s = .ok n s' ∧ env n = .dead ∧ Shows s' n first ∧ Shows s' o rest ∧ OthersKeep env o s' ∧
    Reach cfg s' ((env.upd n (.val first)).upd o (.val rest))

theorem peels_of (hv : cfg.Valid) (hp : cfg.Physical) {m : M T Nat} {o : Nat} {v first rest : List T} (ho : env o = .val v)
    (h : Runs cfg m s (fun n env' => env n = .dead ∧ env' = (env.upd n (.val first)).upd o (.val rest)) (fun _ _ => False)) :
    Peels cfg s env m o first rest := by
  unfold Runs at h
  cases hm : m s with
  | ub => rw [hm] at h; exact h.elim
  | throw e t => rw [hm] at h; obtain ⟨_, h, _⟩ := h; exact h.elim
  | ok n t =>
    rw [hm] at h
    obtain ⟨_, ⟨hd, rfl⟩, h, _⟩ := h
    have hne : n ≠ o := (dead_ne hd (live_val ho)).symm
    refine ⟨n, t, hm, hd, h.shows hv hp ?_, h.shows hv hp Env.upd_self, fun p w hpo hw => h.shows hv hp ?_, h⟩
    · rw [Env.upd_ne hne, Env.upd_self]
    · rw [Env.upd_ne hpo, Env.upd_ne (dead_ne hd (live_val hw)), hw]

end

section
variable {cfg : Cfg UInt8} {s : St UInt8} {env : Env UInt8}

/-- The function returns new, different objects that show `vs`; every other object shows what it did, and no
further object exists. -/
def YieldsAll (cfg : Cfg UInt8) (s : St UInt8) (env : Env UInt8) (m : SM (List Nat)) (vs : List Bytes) : Prop :=
  ∃ (ns : List Nat) (s' : St UInt8), m s = .ok ns s' ∧ (∀ n ∈ ns, env n = .dead) ∧ ns.Nodup ∧ ns.length = vs.length ∧
    (∀ (i n : Nat) (v : Bytes), ns[i]? = some n → vs[i]? = some v → Shows s' n v) ∧ AllKeep env s' ∧
    ∃ env', Reach cfg s' env' ∧ ∀ p, p ∉ ns → env' p = env p

theorem yieldsAll_of (hv : cfg.Valid) (hp : cfg.Physical) {m : SM (List Nat)} {vs : List Bytes}
    (h : Runs cfg m s (fun ids env' => MakesAll env vs ids env') (NoMemory env)) : YieldsAll cfg s env m vs ∨ FailsClean cfg s env m := by
  unfold Runs at h
  cases hm : m s with
  | ub => rw [hm] at h; exact h.elim
  | throw e t =>
    rw [hm] at h
    obtain ⟨_, ⟨rfl, rfl⟩, h1, -, h2⟩ := h
    exact Or.inr ⟨t, hm, h2 rfl, allKeep_reach hv hp h1, h1⟩
  | ok ns t =>
    rw [hm] at h
    obtain ⟨env', hmk, hr, _⟩ := h
    refine Or.inl ⟨ns, t, hm, hmk.fresh, hmk.nodup, by simpa using congrArg List.length hmk.held, fun i n v hn hw => ?_,
      fun p w hw => hr.shows hv hp (by rw [hmk.keep (live_val hw), hw]), env', hr, hmk.rest⟩
    have : (ns.map env')[i]? = (vs.map Slot.val)[i]? := by rw [hmk.held]
    rw [List.getElem?_map, List.getElem?_map, hn, hw] at this
    exact hr.shows hv hp (by simpa using this)

/-! ## Building -/

/-- `a * k`. -/
theorem c65_times (hv : cfg.Valid) (hp : cfg.Physical) (hr : Reach cfg s env) {a k : Nat} {v : Bytes} (ha : env a = .val v)
    (hk : v.length * k < maxCells) :
    Yields cfg s env (mulP cfg a k) (List.replicate k v).flatten ∨ FailsClean cfg s env (mulP cfg a k) :=
  yields_of hv hp (runs_mulP hv hp hr ha (c34_mul v k hk))

/-- `a * -k` throws `bad_alloc` and changes nothing. -/
theorem c65_times_negative (hv : cfg.Valid) (hp : cfg.Physical) (hr : Reach cfg s env) {a k : Nat} {v : Bytes} (ha : env a = .val v)
    (hk : 0 < k) (hv0 : v ≠ []) (hm : v.length * k ≤ maxCells) : FailsClean cfg s env (mulP cfg a (-k)) := by
  have h0 : 0 < v.length := List.length_pos_iff.mpr hv0
  have h := runs_mulP_exc hv hp hr ha (c34_negative v k hk h0 hm)
  unfold Runs at h
  cases hm : mulP cfg a (-k) s with
  | ub => rw [hm] at h; exact h.elim
  | ok n t => rw [hm] at h; obtain ⟨_, h, _⟩ := h; exact h.elim
  | throw e t =>
    rw [hm] at h
    obtain ⟨_, ⟨rfl, rfl⟩, h1, -, h2⟩ := h
    exact ⟨t, hm, h2 rfl, allKeep_reach hv hp h1, h1⟩

/-- `a.sub(d, r, limit)`; the three may be the same object. -/
theorem c65_sub_partial (hv : cfg.Valid) (hp : cfg.Physical) {L : Libc} (hL : L.Ok) (hr : Reach cfg s env) {a b c : Nat} {v d r : Bytes}
    (ha : env a = .val v) (hb : env b = .val d) (hc : env c = .val r) (hl : v.length ≤ maxInt) (hd : d ≠ []) {limit : Int}
    (hlim : limit = -1 ∨ 1 ≤ limit) {fuel : Nat} (hf : v.length < fuel) :
    ∃ out, Replaced d r (limitOf limit) v out ∧
      (Yields cfg s env (subP cfg L fuel a b c limit) out ∨ FailsClean cfg s env (subP cfg L fuel a b c limit)) := by
  obtain ⟨out, h1, h2⟩ := c30_sub_partial hL r hl hd hlim fuel hf
  exact ⟨out, h2, yields_of hv hp (runs_subP hv hp hr ha hb hc hl h1)⟩

/-- `a.subst(map)` for any iteration order `kvs` of the map. -/
theorem c65_subst_partial (hv : cfg.Valid) (hp : cfg.Physical) {L : Libc} (hL : L.Ok) (hr : Reach cfg s env) {a : Nat} {v : Bytes}
    {kvs : List (Nat × Nat)} {kws : List (Bytes × Bytes)} (ha : env a = .val v)
    (hk : kvs.map (fun x => (env x.1, env x.2)) = kws.map (fun x => (Slot.val x.1, Slot.val x.2))) (hi : Independent kws) {B : Nat}
    (hB : ∀ e ∈ kws, e.2.length ≤ B) (hl : v.length * (B + 1) ≤ maxInt) {fuel : Nat} (hf : maxInt < fuel) :
    ∃ out, Simul kws v out ∧ (Yields cfg s env (substP cfg L fuel a kvs) out ∨ FailsClean cfg s env (substP cfg L fuel a kvs)) := by
  obtain ⟨out, h1, h2⟩ := c31_subst_partial hL hi hB hl hf
  refine ⟨out, h1, yields_of hv hp (runs_substP hv hp hr ha hk (fun i w hw => ?_) (h2 kws (List.Perm.refl _)))⟩
  have hmem : ∀ e ∈ kws.take i, e ∈ kws := fun e he => List.mem_of_mem_take he
  have hi' : Independent (kws.take i) := ⟨fun e he => hi.1 e (hmem e he), hi.2.sublist (List.take_sublist i kws)⟩
  obtain ⟨w', h3, h4⟩ := c31_subst_partial hL hi' (fun e he => hB e (hmem e he)) hl hf
  rw [h4 _ (List.Perm.refl _)] at hw
  cases hw
  exact Nat.le_trans (simul_length (fun k r hm => ⟨(hi'.1 _ hm).1, hB _ (hmem _ hm)⟩) h3) hl

/-- `join(delim, quoted)`; elements may be the same object as each other or as the delimiter. -/
theorem c65_join_partial (hv : cfg.Valid) (hp : cfg.Physical) (hn : cfg.nul = some 0) (hr : Reach cfg s env) {os : List Nat}
    {a : List Bytes} {b : Nat} {d : Bytes} {q : Bool} (ho : os.map env = a.map .val) (hb : env b = .val d)
    (hsize : a.length * d.length + a.length * 2 + (a.map List.length).sum < maxCells)
    (hne : a = [] ∨ d ≠ [] ∨ q = true ∨ ∃ x ∈ a, x ≠ []) :
    Yields cfg s env (joinP cfg os b q) (d.intercalate (a.map (shown q))) ∨ FailsClean cfg s env (joinP cfg os b q) :=
  yields_of hv hp (runs_joinP hv hp hn hr ho hb (c35_join_partial a d q hsize hne))

/-! ## Cutting -/

/-- `a.chomp()` in terms of the function on values (C33). -/
theorem c65_chomp (hv : cfg.Valid) (hp : cfg.Physical) (hr : Reach cfg s env) {a : Nat} {v : Bytes} :
    (env a = .val (v ++ [13, 10]) → Turns cfg s env (chompP a) a v) ∧
    (env a = .val (v ++ [10]) → v.getLast? ≠ some 13 → Turns cfg s env (chompP a) a v) ∧
    (env a = .val (v ++ [13]) → Turns cfg s env (chompP a) a v) ∧
    (env a = .val v → v.getLast? ≠ some 10 → v.getLast? ≠ some 13 → Turns cfg s env (chompP a) a v) :=
  ⟨fun h => turns_of hv hp (runs_chompP hv hp hr h (c33_chomp_crlf v)),
    fun h h1 => turns_of hv hp (runs_chompP hv hp hr h (c33_chomp_lf v h1)),
    fun h => turns_of hv hp (runs_chompP hv hp hr h (c33_chomp_cr v)),
    fun h h1 h2 => turns_of hv hp (runs_chompP hv hp hr h (c33_chomp_none v h1 h2))⟩

/-- `a.trim()`: what is left is the middle between two runs of white space, and neither starts nor ends with it. -/
theorem c65_trim (hv : cfg.Valid) (hp : cfg.Physical) {L : Libc} (hr : Reach cfg s env) {a : Nat} {v : Bytes} (ha : env a = .val v)
    {fuel : Nat} (hf : v.length < fuel) :
    ∃ x m y, v = x ++ m ++ y ∧ (∀ c ∈ x, L.isspace c = true) ∧ (∀ c ∈ y, L.isspace c = true) ∧
      (∀ c, m.head? = some c → L.isspace c = false) ∧ (∀ c, m.getLast? = some c → L.isspace c = false) ∧
      Turns cfg s env (trimP L fuel a) a m := by
  obtain ⟨x, m, y, h1, h2, h3, h4, h5, h6⟩ := c33_trim L v
  exact ⟨x, m, y, h2, h3, h4, h5, h6, turns_of hv hp (runs_trimP hv hp hr ha hf h1)⟩

/-- `newsplit(a, d)` with the delimiter present ... -/
theorem c65_newsplit_partial (hv : cfg.Valid) (hp : cfg.Physical) (hr : Reach cfg s env) {a : Nat} {d : UInt8} {x rest : Bytes}
    (ha : env a = .val (x ++ d :: rest)) (hl : (x ++ d :: rest).length ≤ maxInt) (hx : d ∉ x) :
    Peels cfg s env (newsplitP cfg a d) a x (if d = 32 then rest.dropWhile (· == 32) else rest) :=
  peels_of hv hp ha (runs_newsplitP hv hp hr ha hl (c32_newsplit_partial hl hx))

/-- ... and without. -/
theorem c65_newsplit_last_partial (hv : cfg.Valid) (hp : cfg.Physical) (hr : Reach cfg s env) {a : Nat} {d : UInt8} {v : Bytes}
    (ha : env a = .val v) (hl : v.length ≤ maxInt) (hd : d ∉ v) : Peels cfg s env (newsplitP cfg a d) a v [] :=
  peels_of hv hp ha (runs_newsplitP hv hp hr ha hl (c32_last hl hd))

/-- `a.split(d)`: the pieces are views of `a`'s storage; `a` and `d` may be the same object. -/
theorem c65_split_partial (hv : cfg.Valid) (hp : cfg.Physical) (hn : cfg.nul = some 0) {L : Libc} (hL : L.Ok) (hm : L.memmem = true)
    (hr : Reach cfg s env) {a b : Nat} {v d : Bytes} (ha : env a = .val v) (hb : env b = .val d) (hl : v.length ≤ maxInt)
    (hd : d ≠ []) (hsp : d ≠ [32]) {fuel : Nat} (hf : v.length < fuel) :
    ∃ ps, Cut d v ps ∧ (YieldsAll cfg s env (splitP cfg L fuel a b npos) ps ∨ FailsClean cfg s env (splitP cfg L fuel a b npos)) := by
  obtain ⟨ps, h1, h2, -⟩ := c28_split_partial hL hm hl hd hsp fuel hf
  exact ⟨ps, h2, yieldsAll_of hv hp (runs_splitP hv hp hn hr ha hb hl h1)⟩

/-- `a.split(" ")`. -/
theorem c65_words_partial (hv : cfg.Valid) (hp : cfg.Physical) (hn : cfg.nul = some 0) {L : Libc} (hL : L.Ok) (hm : L.memmem = true)
    (hr : Reach cfg s env) {a b : Nat} {v : Bytes} (ha : env a = .val v) (hb : env b = .val [32]) (hl : v.length ≤ maxInt)
    {fuel : Nat} (hf : v.length < fuel) :
    ∃ ws, Words 32 v ws ∧ (YieldsAll cfg s env (splitP cfg L fuel a b npos) ws ∨ FailsClean cfg s env (splitP cfg L fuel a b npos)) := by
  obtain ⟨ws, h1, h2⟩ := c29_words_partial hL hm hl fuel hf
  exact ⟨ws, h2, yieldsAll_of hv hp (runs_splitP hv hp hn hr ha hb hl h1)⟩

/-- `a++` returns the old value ... -/
theorem c65_post_inc (hv : cfg.Valid) (hp : cfg.Physical) (hr : Reach cfg s env) {a : Nat} {v : Bytes} (ha : env a = .val v) :
    Peels cfg s env (postInc cfg a) a v v.tail := by
  have := peels_of hv hp ha (runs_postInc hv hp hr ha)
  rwa [List.drop_one] at this

/-- ... and so does `a--`, on a String that is not empty. -/
theorem c65_post_dec (hv : cfg.Valid) (hp : cfg.Physical) (hr : Reach cfg s env) {a : Nat} {v : Bytes} (ha : env a = .val v) (h0 : v ≠ []) :
    Peels cfg s env (postDec cfg a) a v v.dropLast := peels_of hv hp ha (runs_postDec hv hp hr ha h0)

/-! ## Comparing and searching -/

theorem runs_compare_sign (hv : cfg.Valid) (hp : cfg.Physical) {L : Libc} (hL : L.Ok) (hr : Reach cfg s env) {a b : Nat} {v w : Bytes}
    (ha : env a = .val v) (hb : env b = .val w) (hn : NearLengths v w) {E : Exc → Env UInt8 → Prop} :
    Runs cfg (compareP L a b) s (fun r env' => SignOf r v w ∧ env' = env) E := by
  unfold compareP
  refine Runs.bind (runs_sameStart hv hp hr ha hb) fun same s1 env1 hr1 e => ?_
  obtain ⟨hsame, rfl⟩ := e
  refine Runs.bind (runs_contents hv hp hr1 ha) fun v' s2 env2 hr2 e => ?_
  obtain ⟨e1, rfl⟩ := e
  subst v'
  refine Runs.bind (runs_contents hv hp hr2 hb) fun w' s3 env3 hr3 e => ?_
  obtain ⟨e1, rfl⟩ := e
  subst w'
  obtain ⟨r, h1, h2⟩ := c24_compare_partial hL hsame hn
  exact Runs.mono (runs_liftE (E := E) h1 hr3) (fun _ _ ⟨e1, e2⟩ => ⟨e1 ▸ h2, e2⟩) fun _ _ h => h

/-- `a.compare(b)`, for lengths that differ by less than 2^31. -/
theorem c65_compare_partial (hv : cfg.Valid) (hp : cfg.Physical) {L : Libc} (hL : L.Ok) (hr : Reach cfg s env) {a b : Nat} {v w : Bytes}
    (ha : env a = .val v) (hb : env b = .val w) (hn : NearLengths v w) :
    ∃ r, SignOf r v w ∧ Answers cfg s env (compareP L a b) r := by
  have h := runs_compare_sign hv hp hL hr ha hb hn (E := fun _ _ => False)
  unfold Runs at h
  cases hm : compareP L a b s with
  | ub => rw [hm] at h; exact h.elim
  | throw e t => rw [hm] at h; obtain ⟨_, h, _⟩ := h; exact h.elim
  | ok r t =>
    rw [hm] at h
    obtain ⟨_, ⟨h1, rfl⟩, h, _⟩ := h
    exact ⟨r, h1, t, hm, allKeep_reach hv hp h, h⟩

/-- `a == b`, whatever the two share. -/
theorem c65_eq (hv : cfg.Valid) (hp : cfg.Physical) {L : Libc} (hL : L.Ok) (hr : Reach cfg s env) {a b : Nat} {v w : Bytes}
    (ha : env a = .val v) (hb : env b = .val w) : Answers cfg s env (eqP L a b) (decide (v = w)) := by
  refine answers_of hv hp ?_
  unfold eqP
  refine Runs.bind (runs_length hv hp hr ha) fun n s1 env1 hr1 e => ?_
  obtain ⟨e1, rfl⟩ := e
  subst n
  refine Runs.bind (runs_length hv hp hr1 hb) fun n s2 env2 hr2 e => ?_
  obtain ⟨e1, rfl⟩ := e
  subst n
  by_cases hl : v.length = w.length
  · rw [if_pos hl]
    refine Runs.bind (runs_compare_sign hv hp hL hr2 ha hb ⟨by omega, by omega⟩) fun r s3 env3 hr3 e => ?_
    obtain ⟨hs, rfl⟩ := e
    exact Runs.pure hr3 ⟨decide_eq_decide.mpr hs.2.1, rfl⟩
  · rw [if_neg hl]
    exact Runs.pure hr2 ⟨by rw [decide_eq_false]; exact fun e => hl (by rw [e]), rfl⟩

/-- `a.find(b)`. -/
theorem c65_find (hv : cfg.Valid) (hp : cfg.Physical) {L : Libc} (hL : L.Ok) (hr : Reach cfg s env) {a b : Nat} {v w : Bytes}
    (ha : env a = .val v) (hb : env b = .val w) :
    ∃ r, Finds Smallest (OccursAt w v) npos r ∧ Answers cfg s env (findP L a b) r := by
  have hl := hr.len_lt hv hp ha
  obtain ⟨r, h1, h2⟩ := c21_find hL (v := v) (by unfold maxCells at hl; unfold npos; omega) w
  exact ⟨r, h2, answers_of hv hp (runs_findP hv hp hr ha hb h1)⟩

end

section
variable {T : Type} [DecidableEq T] {cfg : Cfg T} {s : St T} {env : Env T}

/-! ## Assigning to parts; concatenation -/

/-- `a(start, len) = b`: the first `len` characters of `b` (all of them for `len = -1`) overwrite those of `a` from
`start` on.  `b` may be `a` if `start` is 0 or not inside the copied part. -/
theorem c65_slice_assign (hv : cfg.Valid) (hp : cfg.Physical) (hr : Reach cfg s env) {a b : Nat} {v w : List T} {start len : Int}
    (ha : env a = .val v) (hb : env b = .val w) (hlo : 0 ≤ start) (hhi : start ≤ v.length) (hln : len = -1 ∨ 0 < len)
    (hself : b = a → start = 0 ∨ (if len = -1 then w else w.take len.toNat).length ≤ start) (hmax : len < 9223372036854775808) :
    Turns cfg s env (sliceAssign cfg a start len b) a (replaceAt v start.toNat (if len = -1 then w else w.take len.toNat)) ∨
      FailsAt cfg s env (sliceAssign cfg a start len b) a := by
  have h0 : toSize len ≠ 0 := by
    rcases hln with rfl | h
    · decide
    · rw [toSize_nat (by omega) hmax]; omega
  have ht : w.take (toSize len) = if len = -1 then w else w.take len.toNat := by
    rcases hln with rfl | h
    · rw [if_pos rfl]
      exact take_npos hv hp hr hb
    · rw [if_neg (by omega), toSize_nat (by omega) hmax]
  rw [← ht] at hself ⊢
  refine turns_or_of hv hp (runs_sliceAssign hv hp hr ha hb (fun e => ?_) hlo hhi h0 fun _ _ h => h)
  have := hself e
  rw [List.length_take] at this
  omega

/-- Assigning an object to a part of itself that overlaps the characters copied (`0 < start`, before the end of what
is copied) never works. -/
theorem c65_slice_assign_self (hv : cfg.Valid) (hp : cfg.Physical) (hr : Reach cfg s env) {a : Nat} {v : List T} {start len : Int}
    (ha : env a = .val v) (hlo : 0 < start) (hhi : start < v.length) (hln : len = -1 ∨ start < len) (hmax : len < 9223372036854775808) :
    sliceAssign cfg a start len a s = .ub ∨ ∃ s', sliceAssign cfg a start len a s = .throw .badAlloc s' := by
  have hlt := hr.len_lt hv hp ha
  unfold maxCells at hlt
  have hst := toSize_nat (i := start) (by omega) (by omega)
  have hn : start.toNat < toSize len := by
    rcases hln with rfl | h
    · have : toSize (-1) = 18446744073709551615 := by decide
      rw [this]; omega
    · rw [toSize_nat (by omega) hmax]; omega
  have h := c07_replace_self hv hp hr ha (pos := start.toNat) (n := toSize len) (by omega) (by omega) hn
  unfold sliceAssign
  rw [hst]
  simp only [run, mapOut] at h
  change NeverOk (M.bind _ _ _) at h
  unfold M.bind at h
  cases hm : replaceRca cfg a start.toNat a (toSize len) s with
  | ok x t =>
    rw [hm] at h
    rcases h with h | ⟨_, h⟩ <;> cases h
  | throw e t =>
    rw [hm] at h
    rcases h with h | ⟨_, h⟩
    · cases h
    · cases h; exact .inr ⟨_, rfl⟩
  | ub => exact .inl rfl

/-- A start outside the String, in particular a negative one, is refused: nothing changes. -/
theorem c65_slice_assign_range (hv : cfg.Valid) (hp : cfg.Physical) (hr : Reach cfg s env) {a b : Nat} {v w : List T} {start len : Int}
    (ha : env a = .val v) (hb : env b = .val w) (hmin : -9223372036854775808 ≤ start) (hmax : start < 9223372036854775808)
    (hout : start < 0 ∨ v.length < start) (hln : len = -1 ∨ 0 < len ∧ len < 9223372036854775808) :
    ∃ s', sliceAssign cfg a start len b s = .throw .outOfRange s' ∧ AllKeep env s' ∧ Reach cfg s' env := by
  have h0 : toSize len ≠ 0 := by
    rcases hln with rfl | ⟨h, hmax⟩
    · decide
    · rw [toSize_nat (by omega) hmax]; omega
  have h := runs_sliceAssign_out hv hp hr ha hb hmin hmax hout h0
  unfold Runs at h
  cases hm : sliceAssign cfg a start len b s with
  | ub => rw [hm] at h; exact h.elim
  | ok n t => rw [hm] at h; obtain ⟨_, h, _⟩ := h; exact h.elim
  | throw e t =>
    rw [hm] at h
    obtain ⟨_, ⟨rfl, rfl⟩, h1, -⟩ := h
    exact ⟨t, rfl, allKeep_reach hv hp h1, h1⟩

/-- `a(start, len) = b(start', len')`; `b` may be `a`. -/
theorem c65_slice_assign_slice (hv : cfg.Valid) (hp : cfg.Physical) (hr : Reach cfg s env) {a b : Nat} {v w : List T}
    {start len start' len' : Int} (ha : env a = .val v) (hb : env b = .val w) (hs : SliceOk w.length start' len') (hlo : 0 ≤ start)
    (hhi : start ≤ v.length) (hln : 0 < len) (hmax : len < 9223372036854775808) :
    Turns cfg s env (sliceAssignSlice cfg a start len b start' len') a (replaceAt v start.toNat ((sliceSpec w start' len').take len.toNat)) ∨
      FailsAt cfg s env (sliceAssignSlice cfg a start len b start' len') a := by
  have ht := toSize_nat (by omega) hmax
  rw [← ht]
  exact turns_or_of hv hp (runs_sliceAssignSlice hv hp hr ha hb hs hlo hhi (by rw [ht]; omega) fun _ _ h => h)

/-- `a(start, len) = std::move(b)`: like `a(start, len) = b`.  `b` keeps its value, unless the assignment replaces all
of `a` by all of the longer `b`: then `b` is moved from, and the assignment cannot fail. -/
theorem c65_slice_assign_move (hv : cfg.Valid) (hp : cfg.Physical) (hr : Reach cfg s env) {a b : Nat} {v w : List T} {start len : Int}
    (ha : env a = .val v) (hb : env b = .val w) (hne : b ≠ a) (hlo : 0 ≤ start) (hhi : start ≤ v.length) (hln : len = -1 ∨ 0 < len)
    (hmax : len < 9223372036854775808) :
    if start = 0 ∧ v.length < w.length ∧ (len = -1 ∨ len = w.length) then
      ∃ s', sliceAssignMove cfg a start len b s = .ok () s' ∧ Shows s' a w ∧ (∀ p x, p ≠ a → p ≠ b → env p = .val x → Shows s' p x) ∧
        Reach cfg s' ((env.upd b (movedSlot cfg)).upd a (.val w))
    else
      Turns cfg s env (sliceAssignMove cfg a start len b) a (replaceAt v start.toNat (if len = -1 then w else w.take len.toNat)) ∨
        FailsAt cfg s env (sliceAssignMove cfg a start len b) a := by
  have hlw := hr.len_lt hv hp hb
  unfold maxCells at hlw
  have h0 : toSize len ≠ 0 := by
    rcases hln with rfl | h
    · decide
    · rw [toSize_nat (by omega) hmax]; omega
  have ht : w.take (toSize len) = if len = -1 then w else w.take len.toNat := by
    rcases hln with rfl | h
    · rw [if_pos rfl]
      exact take_npos hv hp hr hb
    · rw [if_neg (by omega), toSize_nat (by omega) hmax]
  have hc : (toSize len = npos ∨ toSize len = w.length) ↔ (len = -1 ∨ len = w.length) := by
    rcases hln with rfl | h
    · exact ⟨fun _ => Or.inl rfl, fun _ => Or.inl (by decide)⟩
    · rw [toSize_nat (by omega) hmax]; unfold npos; omega
  rw [← ht]
  have key := runs_sliceAssignMove hv hp hr ha hb hne hlo hhi h0 (and_congr_right fun _ => and_congr_right fun _ => hc)
  split
  · rename_i h
    have hw' : replaceAt v start.toNat (w.take (toSize len)) = w := by
      obtain ⟨rfl, hl, h2⟩ := h
      have : w.take (toSize len) = w := by
        rcases h2 with rfl | rfl
        · rw [ht, if_pos rfl]
        · rw [ht, if_neg (by omega)]; simp
      rw [this]
      unfold replaceAt
      simp only [Int.toNat_zero, List.take_zero, List.nil_append, Nat.zero_add]
      rw [List.drop_eq_nil_of_le (by omega), List.append_nil]
    rw [hw'] at key
    unfold Runs at key
    cases hm : sliceAssignMove cfg a start len b s with
    | ub => rw [hm] at key; exact key.elim
    | throw e t =>
      rw [hm] at key
      obtain ⟨_, ⟨h1, -⟩, -⟩ := key
      exact absurd h h1
    | ok n t =>
      rw [hm] at key
      obtain ⟨_, ⟨-, rfl⟩ | ⟨h1, -⟩, h2, -⟩ := key
      · exact ⟨t, rfl, h2.shows hv hp Env.upd_self,
          fun p x h1 h3 hx => h2.shows hv hp (by rw [Env.upd_ne h1, Env.upd_ne h3, hx]), h2⟩
      · exact absurd h h1
  · rename_i h
    refine turns_or_of hv hp ?_
    unfold Runs at key ⊢
    cases hm : sliceAssignMove cfg a start len b s with
    | ub => rw [hm] at key; exact key.elim
    | throw e t =>
      rw [hm] at key
      obtain ⟨env', ⟨-, h1⟩, h2⟩ := key
      exact ⟨env', h1, h2⟩
    | ok n t =>
      rw [hm] at key
      obtain ⟨env', ⟨h1, -⟩ | ⟨-, h1⟩, h2⟩ := key
      · exact absurd h1 h
      · exact ⟨env', h1, h2⟩

/-- `a[i] = b[j]`; `b` may be `a`. -/
theorem c65_element_assign (hv : cfg.Valid) (hp : cfg.Physical)
    (hr : Reach cfg s env) {a b i j : Nat} {v w : List T} (ha : env a = .val v) (hb : env b = .val w) (hi : i < v.length) (hj : j < w.length) :
    Turns cfg s env (crefAssign cfg a i b j) a (v.set i w[j]) ∨ FailsAt cfg s env (crefAssign cfg a i b j) a :=
  turns_or_of hv hp (runs_crefAssign hv hp hr ha hb hi hj fun _ _ h => h)

/-- `a + b`; both may be the same object. -/
theorem c65_plus (hv : cfg.Valid) (hp : cfg.Physical) (hr : Reach cfg s env) {a b : Nat} {v w : List T} (ha : env a = .val v)
    (hb : env b = .val w) : Yields cfg s env (plus cfg a b) (v ++ w) ∨ FailsClean cfg s env (plus cfg a b) :=
  yields_of hv hp (runs_plus hv hp hr ha hb)

end

/-! ## A state in which the hypotheses hold

Object 0 is `a,b,a`, object 1 the substring `b,a` of it (same storage), object 2 a copy of object 0, object 3 is `,`. -/

def byteCfg : Cfg UInt8 where
  nul := some 0
  slack := 0
  junk := fun _ _ => 170
  moved := id
  scale := fun n => n + n / 2
  allocOk := fun _ n => decide (n < maxCells)
  resetMoved := false
  hasher := fun x => x.toUInt64
  wipe := fun _ i => i.toUInt8

theorem byteCfg_valid : byteCfg.Valid := Or.inl rfl
theorem byteCfg_physical : byteCfg.Physical := by
  intro g n h
  simp [byteCfg]; exact h

def opsW : List (Op UInt8) := [.cstrCtor [97, 44, 98, 44, 97], .substring 0 2 3, .copyCtor 0, .charCtor 44]

def stW : St UInt8 := (exec byteCfg {} opsW).getD {}

def envW : Env UInt8 := (((Env.empty.upd 0 (.val [97, 44, 98, 44, 97])).upd 1 (.val [98, 44, 97])).upd 2
  (.val [97, 44, 98, 44, 97])).upd 3 (.val [44])

theorem reachW : Reach byteCfg stW envW := by
  have h1 := Reach.next byteCfg_valid byteCfg_physical (.init) (op := .cstrCtor [97, 44, 98, 44, 97]) (x := .obj 0)
    (s' := (exec byteCfg {} [.cstrCtor [97, 44, 98, 44, 97]]).getD {}) (env' := Env.empty.upd 0 (.val [97, 44, 98, 44, 97]))
    rfl rfl (fun h => h) (Or.inl ⟨0, rfl, rfl, rfl⟩)
  have h2 := Reach.next byteCfg_valid byteCfg_physical h1 (op := .substring 0 2 3) (x := .obj 1)
    (s' := (exec byteCfg {} [.cstrCtor [97, 44, 98, 44, 97], .substring 0 2 3]).getD {})
    (env' := (Env.empty.upd 0 (.val [97, 44, 98, 44, 97])).upd 1 (.val [98, 44, 97]))
    ⟨⟨_, rfl⟩, by decide⟩ rfl (fun h => h) ⟨1, rfl, rfl, rfl⟩
  have h3 := Reach.next byteCfg_valid byteCfg_physical h2 (op := .copyCtor 0) (x := .obj 2)
    (s' := (exec byteCfg {} [.cstrCtor [97, 44, 98, 44, 97], .substring 0 2 3, .copyCtor 0]).getD {})
    (env' := ((Env.empty.upd 0 (.val [97, 44, 98, 44, 97])).upd 1 (.val [98, 44, 97])).upd 2 (.val [97, 44, 98, 44, 97]))
    (by intro h; cases h) rfl (fun h => h) ⟨2, rfl, rfl, rfl⟩
  exact Reach.next byteCfg_valid byteCfg_physical h3 (op := .charCtor 44) (x := .obj 3) rfl rfl (fun h => h) (Or.inl ⟨3, rfl, rfl, rfl⟩)

/-- Object 1 really shares object 0's storage. -/
example : shared stW 0 = true ∧ shared stW 1 = true ∧ shared stW 3 = false := ⟨rfl, rfl, rfl⟩

/-- Replacing `,` in `a,b,a` by `b,a`, which lies in the same storage. -/
example : ∃ out, Replaced [44] [98, 44, 97] (limitOf (-1)) [97, 44, 98, 44, 97] out ∧
    (Yields byteCfg stW envW (subP byteCfg glibc 9 0 3 1 (-1)) out ∨ FailsClean byteCfg stW envW (subP byteCfg glibc 9 0 3 1 (-1))) :=
  c65_sub_partial byteCfg_valid byteCfg_physical glibc_ok reachW rfl rfl rfl (by decide) (by decide) (Or.inl rfl) (by decide)

/-- The contents of object `o` after a function that returned it. -/
def got (r : Res UInt8 Nat) : Option Bytes :=
  match r with
  | .ok n s => match contents n s with
    | .ok v _ => some v
    | _ => none
  | _ => none

/-- The same, computed by the model: it does return. -/
example : got (subP byteCfg glibc 9 0 3 1 (-1) stW) = some [97, 98, 44, 97, 98, 98, 44, 97, 97] := by decide +kernel
example : got (plus byteCfg 1 0 stW) = some [98, 44, 97, 97, 44, 98, 44, 97] := by decide +kernel
example : got (mulP byteCfg 1 2 stW) = some [98, 44, 97, 98, 44, 97] := by decide +kernel
example : got (newsplitP byteCfg 1 44 stW) = some [98] := by decide +kernel
example : got (joinP byteCfg [1, 0, 1] 3 true stW) =
    some [34, 98, 44, 97, 34, 44, 34, 97, 44, 98, 44, 97, 34, 44, 34, 98, 44, 97, 34] := by decide +kernel

/-- The same for a function that returns several objects. -/
def gotAll (r : Res UInt8 (List Nat)) : Option (List (Option Bytes)) :=
  match r with
  | .ok ns s => some (ns.map fun n => got (.ok n s))
  | _ => none

example : gotAll (splitP byteCfg glibc 9 0 3 npos stW) = some [some [97], some [98], some [97]] := by decide +kernel

/-- The contents of `o` after a function without result. -/
def after (o : Nat) (r : Res UInt8 Unit) : Option Bytes :=
  match r with
  | .ok _ s => got (.ok o s)
  | _ => none

/-- `a(1, 2) = a(2, 3)` and `b[0] = a[4]`. -/
example : after 0 (sliceAssignSlice byteCfg 0 1 2 0 2 3 stW) = some [97, 98, 44, 44, 97] ∧
    after 1 (crefAssign byteCfg 1 0 0 4 stW) = some [97, 44, 97] ∧
    after 0 (crefAssign byteCfg 1 0 0 4 stW) = some [97, 44, 98, 44, 97] := by decide +kernel
/-- `a(1, 2) = std::move(b)` copies, `b(0, -1) = std::move(a)` takes the storage. -/
example : after 0 (sliceAssignMove byteCfg 0 1 2 1 stW) = some [97, 98, 44, 44, 97] ∧ after 1 (sliceAssignMove byteCfg 0 1 2 1 stW) = some [98, 44, 97] ∧
    after 1 (sliceAssignMove byteCfg 1 0 (-1) 0 stW) = some [97, 44, 98, 44, 97] ∧
    (∃ s', sliceAssignMove byteCfg 1 0 (-1) 0 stW = .ok () s' ∧ Reach byteCfg s' ((envW.upd 0 (movedSlot byteCfg)).upd 1 (.val [97, 44, 98, 44, 97]))) := by
  refine ⟨by decide +kernel, by decide +kernel, by decide +kernel, ?_⟩
  have h := c65_slice_assign_move byteCfg_valid byteCfg_physical reachW (a := 1) (b := 0) (v := [98, 44, 97]) (w := [97, 44, 98, 44, 97])
    (start := 0) (len := -1) rfl rfl (by decide) (by decide) (by decide) (Or.inl rfl) (by decide)
  rw [if_pos (by decide)] at h
  obtain ⟨s', h1, -, -, h2⟩ := h
  exact ⟨s', h1, h2⟩
/-- `a(3, 2) = a`: the first two characters of `a,b,a` go behind the first three; `a(2, 4) = a` overlaps. -/
example : Turns byteCfg stW envW (sliceAssign byteCfg 0 3 2 0) 0 (replaceAt [97, 44, 98, 44, 97] 3 [97, 44]) ∨
    FailsAt byteCfg stW envW (sliceAssign byteCfg 0 3 2 0) 0 :=
  c65_slice_assign byteCfg_valid byteCfg_physical reachW (v := [97, 44, 98, 44, 97]) (w := [97, 44, 98, 44, 97]) (start := 3) (len := 2) rfl rfl
    (by decide) (by decide) (Or.inr (by decide)) (by decide) (by decide)
example : sliceAssign byteCfg 0 2 4 0 stW = .ub ∨ ∃ s', sliceAssign byteCfg 0 2 4 0 stW = .throw .badAlloc s' :=
  c65_slice_assign_self byteCfg_valid byteCfg_physical reachW (v := [97, 44, 98, 44, 97]) rfl (by decide) (by decide) (Or.inr (by decide)) (by decide)
example : Turns byteCfg stW envW (sliceAssign byteCfg 1 1 (-1) 3) 1 (replaceAt [98, 44, 97] 1 [44]) ∨
    FailsAt byteCfg stW envW (sliceAssign byteCfg 1 1 (-1) 3) 1 :=
  c65_slice_assign byteCfg_valid byteCfg_physical reachW rfl rfl (by decide) (by decide) (Or.inl rfl) (by decide) (by decide)

end Bdlib.Rca
