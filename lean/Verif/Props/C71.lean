import Verif.Prog.Convert
import Verif.Props.C65
import Verif.Props.C22
import Verif.Props.C23
import Verif.Props.C37
import Verif.Props.C38
import Verif.Props.C40

/-!
# C71: copies of Strings in other forms

`copy`, `dup`, `std::string`, the const versions of `chomp` and `trim`, base64 and case-insensitive search, on String
objects that may share storage.
-/

namespace Bdlib.Rca
open Bdlib Bdlib.Spec Bdlib.Str

section
variable {cfg : Cfg UInt8} {s : St UInt8} {env : Env UInt8} {E : Exc → Env UInt8 → Prop}

/-- `a.copy(dst, n)`: exactly the first `min(n, length)` bytes of the buffer are overwritten, with the first bytes of the
String, and their number is returned.  No terminator is written. -/
theorem c71_copy (hv : cfg.Valid) (hp : cfg.Physical) (hr : Reach cfg s env) {a : Nat} {v : Bytes} (ha : env a = .val v) {n : Nat}
    {dst : Bytes} (hd : min n v.length ≤ dst.length) :
    Answers cfg s env (copyP a n dst) (min n v.length, v.take n ++ dst.drop (min n v.length)) := by
  refine answers_of hv hp ?_
  unfold copyP
  refine Runs.bind (runs_contents hv hp hr ha) fun y s1 env1 hr1 e => ?_
  obtain ⟨rfl, rfl⟩ := e
  dsimp only
  rw [if_pos hd]
  refine Runs.pure hr1 ⟨?_, rfl⟩
  have : y.take (min n y.length) = y.take n := by
    rcases Nat.le_total n y.length with h | h
    · rw [Nat.min_eq_left h]
    · rw [Nat.min_eq_right h, List.take_length, List.take_of_length_le h]
  rw [this]

/-- A buffer that is too short is overrun. -/
theorem c71_copy_short (hv : cfg.Valid) (hp : cfg.Physical) (hr : Reach cfg s env) {a : Nat} {v : Bytes} (ha : env a = .val v) {n : Nat}
    {dst : Bytes} (hd : dst.length < min n v.length) : copyP a n dst s = .ub := by
  obtain ⟨t, h, -⟩ := answers_of hv hp (runs_contents (E := fun _ _ => False) hv hp hr ha)
  unfold copyP
  rw [bind_ok h]
  show (if min n v.length ≤ dst.length then _ else M.undef) t = _
  rw [if_neg (by omega)]
  rfl

/-- `a.dup()`: a new buffer with the bytes of the String and a terminator, or `bad_alloc`. -/
theorem c71_dup (hv : cfg.Valid) (hp : cfg.Physical) (hr : Reach cfg s env) {a : Nat} {v : Bytes} (ha : env a = .val v) (junk : Nat → UInt8) :
    Answers cfg s env (dupP a true junk) (v ++ [0]) ∧
      ∃ s', dupP a false junk s = .throw .badAlloc s' ∧ AllKeep env s' ∧ Reach cfg s' env := by
  constructor
  · refine answers_of hv hp ?_
    unfold dupP
    refine Runs.bind (runs_contents hv hp hr ha) fun y s1 env1 hr1 e => ?_
    obtain ⟨rfl, rfl⟩ := e
    dsimp only
    rw [if_pos rfl]
    refine Runs.pure hr1 ⟨?_, rfl⟩
    apply List.ext_getElem
    · simp
    · intro i h1 h2
      simp at h1 h2
      rw [List.getElem_set]
      by_cases he : i = y.length
      · subst he; simp
      · have hlt : i < y.length := by omega
        rw [if_neg (by omega), List.getElem_append_left hlt, List.getElem_append_left hlt]
  · obtain ⟨t, h, h1, h2⟩ := answers_of hv hp (runs_contents (E := fun _ _ => False) hv hp hr ha)
    refine ⟨t, ?_, h1, h2⟩
    unfold dupP
    rw [bind_ok h]
    rfl

/-- `std::string(a)`: the contents, NUL bytes included. -/
theorem c71_std (hv : cfg.Valid) (hp : cfg.Physical) (hr : Reach cfg s env) {a : Nat} {v : Bytes} (ha : env a = .val v) :
    Answers cfg s env (toStdP a) v := answers_of hv hp (runs_contents hv hp hr ha)

theorem runs_strCtor (hv : cfg.Valid) (hp : cfg.Physical) (hn : cfg.nul = some 0) (hr : Reach cfg s env) (xs : Bytes) (hE : E .badAlloc env) :
    Runs cfg (strCtor cfg 0 xs) s (fun o env' => env o = .dead ∧ env' = env.upd o (.val xs)) E :=
  runs_op hv hp hr (op := .strCtor xs) (f := .obj) (by unfold run; rw [hn]) (by show cfg.nul.isSome = true; rw [hn]; rfl)
    (fun a env' h => by
      rcases h with ⟨o, h1, h2, h3⟩ | ⟨h, -⟩
      · cases h2; exact ⟨h1, h3⟩
      · cases h)
    (fun e env' h => by
      rcases h with ⟨o, h1, h2, h3⟩ | ⟨h, h2⟩
      · cases h2
      · cases h; rw [h2]; exact hE)

/-! ## chomp() const, trim() const -/

theorem runs_copied (hv : cfg.Valid) (hp : cfg.Physical) (hr : Reach cfg s env) {a : Nat} {v r : Bytes} (ha : env a = .val v)
    {f : Nat → SM Unit}
    (hf : ∀ t s1 env1, Reach cfg s1 env1 → env1 t = .val v → Runs cfg (f t) s1 (fun _ env' => env' = env1.upd t (.val r)) (fun _ _ => False)) :
    Runs cfg (withLocal cfg (copyCtor a) fun t => do f t; copyCtor t) s (Returns env r) (fun _ _ => False) := by
  refine runs_withLocal hv hp (runs_copyCtor hv hp hr ha) fun t s1 hd hr1 => ?_
  refine Runs.bind (Runs.mono (hf t s1 _ hr1 Env.upd_self) (fun _ _ h => h) fun _ _ h => h.elim) fun _ s2 env2 hr2 e => ?_
  subst e
  rw [Env.upd_upd] at hr2
  refine Runs.mono (runs_copyCtor (E := fun _ _ => False) hv hp hr2 Env.upd_self) (fun n env' ⟨h1, h2⟩ => ?_) fun _ _ h => h.elim
  subst h2
  have hne : n ≠ t := fun e => by subst e; rw [Env.upd_self] at h1; cases h1
  rw [Env.upd_ne hne] at h1
  refine ⟨live_val (by rw [Env.upd_ne hne.symm, Env.upd_self]), h1, ?_⟩
  env_eq

theorem yields_only (hv : cfg.Valid) (hp : cfg.Physical) {m : SM Nat} {v : Bytes} (h : Runs cfg m s (Returns env v) (fun _ _ => False)) :
    Yields cfg s env m v := by
  unfold Runs at h
  cases hm : m s with
  | ub => rw [hm] at h; exact h.elim
  | throw e t => rw [hm] at h; obtain ⟨_, h, _⟩ := h; exact h.elim
  | ok n t =>
    rw [hm] at h
    obtain ⟨_, ⟨hd, rfl⟩, h, _⟩ := h
    exact ⟨n, t, hm, hd, h.shows hv hp Env.upd_self,
      fun p w hw => h.shows hv hp (by rw [Env.upd_ne (dead_ne hd (live_val hw))]; exact hw), h⟩

/-- `a.chomp()` on a const String: a new String, `a` is unchanged. -/
theorem c71_chomp (hv : cfg.Valid) (hp : cfg.Physical) (hr : Reach cfg s env) {a : Nat} {v : Bytes} :
    (env a = .val (v ++ [13, 10]) → Yields cfg s env (chompedP cfg a) v) ∧
    (env a = .val (v ++ [10]) → v.getLast? ≠ some 13 → Yields cfg s env (chompedP cfg a) v) ∧
    (env a = .val (v ++ [13]) → Yields cfg s env (chompedP cfg a) v) ∧
    (env a = .val v → v.getLast? ≠ some 10 → v.getLast? ≠ some 13 → Yields cfg s env (chompedP cfg a) v) :=
  ⟨fun h => yields_only hv hp (runs_copied hv hp hr h fun _ _ _ hr1 h1 => runs_chompP hv hp hr1 h1 (c33_chomp_crlf v)),
    fun h h0 => yields_only hv hp (runs_copied hv hp hr h fun _ _ _ hr1 h1 => runs_chompP hv hp hr1 h1 (c33_chomp_lf v h0)),
    fun h => yields_only hv hp (runs_copied hv hp hr h fun _ _ _ hr1 h1 => runs_chompP hv hp hr1 h1 (c33_chomp_cr v)),
    fun h h0 h2 => yields_only hv hp (runs_copied hv hp hr h fun _ _ _ hr1 h1 => runs_chompP hv hp hr1 h1 (c33_chomp_none v h0 h2))⟩

/-- `a.trim()` on a const String. -/
theorem c71_trim (hv : cfg.Valid) (hp : cfg.Physical) {L : Libc} (hr : Reach cfg s env) {a : Nat} {v : Bytes} (ha : env a = .val v)
    {fuel : Nat} (hf : v.length < fuel) :
    ∃ x m y, v = x ++ m ++ y ∧ (∀ c ∈ x, L.isspace c = true) ∧ (∀ c ∈ y, L.isspace c = true) ∧
      (∀ c, m.head? = some c → L.isspace c = false) ∧ (∀ c, m.getLast? = some c → L.isspace c = false) ∧
      Yields cfg s env (trimmedP cfg L fuel a) m := by
  obtain ⟨x, m, y, h1, h2, h3, h4, h5, h6⟩ := c33_trim L v
  exact ⟨x, m, y, h2, h3, h4, h5, h6, yields_only hv hp (runs_copied hv hp hr ha fun _ _ _ hr1 h7 => runs_trimP hv hp hr1 h7 hf h1)⟩

/-! ## base64 -/

theorem runs_via (hv : cfg.Valid) (hp : cfg.Physical) (hn : cfg.nul = some 0) (hr : Reach cfg s env) {a : Nat} {v w : Bytes}
    (ha : env a = .val v) {f : Bytes → Eff Bytes} (hf : f v = .ret w) :
    Runs cfg (do let x ← contents a; let e ← liftE (f x); strCtor cfg 0 e) s (Returns env w) (NoMemory env) := by
  refine Runs.bind (runs_contents hv hp hr ha) fun _ s1 env1 hr1 e => ?_
  obtain ⟨rfl, rfl⟩ := e
  refine Runs.bind (runs_liftE hf hr1) fun _ s2 env2 hr2 e => ?_
  obtain ⟨rfl, rfl⟩ := e
  exact runs_strCtor hv hp hn hr2 _ ⟨rfl, rfl⟩

/-- `base64Encode(a)` returns the RFC 4648 encoding of the contents of `a`, without reading anything else. -/
theorem c71_encode (hv : cfg.Valid) (hp : cfg.Physical) (hn : cfg.nul = some 0) (hr : Reach cfg s env) {a : Nat} {v : Bytes}
    (ha : env a = .val v) :
    Yields cfg s env (base64EncodeP cfg a none) (rfc4648 (B64.alphabet B64.stdCharset) v) ∨ FailsClean cfg s env (base64EncodeP cfg a none) :=
  yields_of hv hp (runs_via (f := fun v => B64.base64Encode v [] none) hv hp hn hr ha (B64.c37_encode v []))

/-- `base64Decode(a)`, where `a` holds the encoding of any `v`, returns `v`. -/
theorem c71_decode (hv : cfg.Valid) (hp : cfg.Physical) (hn : cfg.nul = some 0) (hr : Reach cfg s env) {a : Nat} {v : Bytes}
    (ha : env a = .val (rfc4648 (B64.alphabet B64.stdCharset) v)) :
    Yields cfg s env (base64DecodeP cfg a none) v ∨ FailsClean cfg s env (base64DecodeP cfg a none) := by
  obtain ⟨e, h1, h2⟩ := B64.c38_round_trip v [] []
  rw [B64.c37_encode] at h1
  cases h1
  exact yields_of hv hp (runs_via (f := fun v => B64.base64Decode v [] none) hv hp hn hr ha h2)

theorem viaMalloc_eq (a : Nat) (conv : Bytes → Eff Bytes) (s : St UInt8) :
    (viaMalloc cfg true a conv s).1 = (do let x ← contents a; let e ← liftE (conv x); strCtor cfg 0 e : SM Nat) s := by
  show _ = (M.bind (contents a) fun x => M.bind (liftE (conv x)) fun e => strCtor cfg 0 e) s
  unfold viaMalloc
  show (match (M.bind (contents a) fun x => liftE (conv x)) s with | .ok e t => _ | .throw x t => _ | .ub => _ : Res UInt8 Nat × Nat).1 = _
  unfold M.bind
  cases contents a s with
  | ub => rfl
  | throw e t => rfl
  | ok x t =>
    dsimp only
    cases liftE (conv x) t with
    | ub => rfl
    | throw e t => rfl
    | ok e t =>
      dsimp only
      rw [if_pos rfl]
      cases strCtor cfg 0 e t <;> rfl

theorem viaMalloc_kept (a : Nat) (conv : Bytes → Eff Bytes) (s : St UInt8) :
    (∀ n t, (viaMalloc cfg true a conv s).1 = .ok n t → (viaMalloc cfg true a conv s).2 = 0) ∧
    (∀ e t, (viaMalloc cfg true a conv s).1 = .throw e t → (viaMalloc cfg true a conv s).2 = 1) := by
  unfold viaMalloc
  cases (do let v ← contents a; liftE (conv v) : SM Bytes) s with
  | ub => exact ⟨(fun _ _ h => nomatch h), (fun _ _ h => nomatch h)⟩
  | throw e t => exact ⟨(fun _ _ h => nomatch h), fun _ _ _ => rfl⟩
  | ok e t =>
    dsimp only
    rw [if_pos rfl]
    cases strCtor cfg 0 e t with
    | ub => exact ⟨(fun _ _ h => nomatch h), (fun _ _ h => nomatch h)⟩
    | throw e t => exact ⟨(fun _ _ h => nomatch h), fun _ _ _ => rfl⟩
    | ok e t => exact ⟨fun _ _ _ => rfl, (fun _ _ h => nomatch h)⟩

theorem c71_via (hv : cfg.Valid) (hp : cfg.Physical) (hn : cfg.nul = some 0) (hr : Reach cfg s env) {a : Nat} {v w : Bytes}
    (ha : env a = .val v) {conv : Bytes → Eff Bytes} (hc : conv v = .ret w) :
    (Yields cfg s env (fun s => (viaMalloc cfg true a conv s).1) w ∧ (viaMalloc cfg true a conv s).2 = 0) ∨
    (FailsClean cfg s env (fun s => (viaMalloc cfg true a conv s).1) ∧ (viaMalloc cfg true a conv s).2 = 1) := by
  have he : (fun s => (viaMalloc cfg true a conv s).1) =
      (do let x ← contents a; let e ← liftE (conv x); strCtor cfg 0 e : SM Nat) := funext (viaMalloc_eq a conv)
  obtain ⟨k1, k2⟩ := viaMalloc_kept (cfg := cfg) a conv s
  rcases yields_of hv hp (runs_via (f := conv) hv hp hn hr ha hc) with h | h
  · rw [← he] at h
    exact Or.inl ⟨h, by obtain ⟨n, t, h, -⟩ := h; exact k1 n t h⟩
  · rw [← he] at h
    exact Or.inr ⟨h, by obtain ⟨t, h, -⟩ := h; exact k2 _ t h⟩

/-- The C buffer of `base64Encode(a)`: freed when the call returns.  It should be freed as well when the call throws; it is
not: the block is still allocated, and nobody has its address. -/
theorem c71_encode_buffer_partial (hv : cfg.Valid) (hp : cfg.Physical) (hn : cfg.nul = some 0) (hr : Reach cfg s env) {a : Nat} {v : Bytes}
    (ha : env a = .val v) :
    (Yields cfg s env (fun s => (base64EncodeH cfg true a none s).1) (rfc4648 (B64.alphabet B64.stdCharset) v) ∧
      (base64EncodeH cfg true a none s).2 = 0) ∨
    (FailsClean cfg s env (fun s => (base64EncodeH cfg true a none s).1) ∧ (base64EncodeH cfg true a none s).2 = 1) :=
  c71_via hv hp hn hr ha (B64.c37_encode v [])

/-- The same for `base64Decode(a)`, where `a` holds the encoding of `v`. -/
theorem c71_decode_buffer_partial (hv : cfg.Valid) (hp : cfg.Physical) (hn : cfg.nul = some 0) (hr : Reach cfg s env) {a : Nat} {v : Bytes}
    (ha : env a = .val (rfc4648 (B64.alphabet B64.stdCharset) v)) :
    (Yields cfg s env (fun s => (base64DecodeH cfg true a none s).1) v ∧ (base64DecodeH cfg true a none s).2 = 0) ∨
    (FailsClean cfg s env (fun s => (base64DecodeH cfg true a none s).1) ∧ (base64DecodeH cfg true a none s).2 = 1) := by
  obtain ⟨e, h1, h2⟩ := B64.c38_round_trip v [] []
  rw [B64.c37_encode] at h1
  cases h1
  exact c71_via hv hp hn hr ha h2

/-- If `malloc` fails, the null pointer is written through. -/
theorem c71_refuted_malloc (hv : cfg.Valid) (hp : cfg.Physical) (hr : Reach cfg s env) {a : Nat} {v : Bytes}
    (ha : env a = .val v) : (base64EncodeH cfg false a none s).1 = .ub := by
  obtain ⟨t, h1, -, hr1⟩ := answers_of hv hp (show Runs cfg (do let v ← contents a; liftE (B64.base64Encode v [] none)) s
      (fun x env' => x = rfc4648 (B64.alphabet B64.stdCharset) v ∧ env' = env)
      (fun _ _ => False) from Runs.bind (runs_contents hv hp hr ha) fun _ s1 env1 hr1 e => by
        obtain ⟨rfl, rfl⟩ := e
        exact runs_liftE (B64.c37_encode _ []) hr1)
  unfold base64EncodeH viaMalloc
  rw [h1]
  rfl

/-! ## Case-insensitive search -/

/-- `bad_alloc`; only the object `o` has changed. -/
def Grown (env : Env UInt8) (o : Nat) (e : Exc) (env' : Env UInt8) : Prop := e = .badAlloc ∧ ∃ x, env' = env.upd o (.val x)

theorem runs_upperInto (hv : cfg.Valid) (hp : cfg.Physical) {L : Libc} {o : Nat} : ∀ (w : Bytes) {s : St UInt8} {v : Bytes},
    Reach cfg s (env.upd o (.val v)) →
    Runs cfg (upperInto cfg L o w) s (fun _ env' => env' = env.upd o (.val (v ++ w.map L.toupper))) (Grown env o)
  | [], s, v, hr => Runs.pure hr (by simp)
  | c :: w, s, v, hr => by
    unfold upperInto
    refine Runs.bind (runs_append hv hp hr Env.upd_self fun e env' h => ⟨h.1, ?_⟩) fun _ s1 env1 hr1 e => ?_
    · rcases h.2 with rfl | rfl
      · exact ⟨v, rfl⟩
      · exact ⟨[], Env.upd_upd _ _ _ _⟩
    · subst e
      rw [Env.upd_upd] at hr1
      have := runs_upperInto hv hp (L := L) w hr1
      simpa using this

theorem runs_upperBoth (hv : cfg.Valid) (hp : cfg.Physical) {L : Libc} (hr : Reach cfg s env) {a b : Nat} {v w : Bytes}
    (ha : env a = .val v) (hb : env b = .val w) {f : Nat → Nat → SM Nat} {r : Nat}
    (hf : ∀ t u s1 env1, Reach cfg s1 env1 → env1 t = .val (v.map L.toupper) → env1 u = .val (w.map L.toupper) →
      Runs cfg (f t u) s1 (fun x env' => x = r ∧ env' = env1) (fun _ _ => False)) :
    Runs cfg (upperBoth cfg L a b f) s (fun x env' => x = r ∧ env' = env) (NoMemory env) := by
  unfold upperBoth
  refine Runs.bind (runs_length hv hp hr hb) fun n s1 env1 hr1 e => ?_
  obtain ⟨-, rfl⟩ := e
  refine runs_withLocal hv hp (runs_sizeCtor hv hp hr1 n ⟨rfl, rfl⟩) fun u s2 hdu hr2 => ?_
  have hau : a ≠ u := dead_ne hdu (live_val ha)
  have hbu : b ≠ u := dead_ne hdu (live_val hb)
  refine Runs.bind (runs_length hv hp hr2 (v := v) (by rw [Env.upd_ne hau, ha])) fun m s3 env3 hr3 e => ?_
  obtain ⟨-, rfl⟩ := e
  have lu : ∀ x : Bytes, (env1.upd u (.val x)).Live u := fun x => live_val Env.upd_self
  have gu : ∀ x : Bytes, (env1.upd u (.val x)).upd u .dead = env1 := fun x => Env.upd_gone _ hdu
  refine runs_withLocal hv hp (runs_sizeCtor hv hp hr3 m ⟨lu _, rfl, gu _⟩) fun t s4 hdt hr4 => ?_
  have htu : t ≠ u := fun e => by subst e; rw [Env.upd_self] at hdt; cases hdt
  have hdt' : env1 t = .dead := by rw [Env.upd_ne htu] at hdt; exact hdt
  have hat : a ≠ t := dead_ne hdt' (live_val ha)
  have hbt : b ≠ t := dead_ne hdt' (live_val hb)
  -- the environment with both temporaries
  have sw : ∀ x y : Bytes, (env1.upd u (.val x)).upd t (.val y) = (env1.upd t (.val y)).upd u (.val x) :=
    fun x y => Env.upd_comm _ _ _ htu.symm
  have bad : ∀ x y : Bytes, ((env1.upd u (.val x)).upd t (.val y)).Live t ∧
      (((env1.upd u (.val x)).upd t (.val y)).upd t .dead).Live u ∧
      NoMemory env1 .badAlloc ((((env1.upd u (.val x)).upd t (.val y)).upd t .dead).upd u .dead) := by
    intro x y
    refine ⟨live_val Env.upd_self, live_val (v := x) (by rw [Env.upd_ne htu.symm, Env.upd_ne htu.symm, Env.upd_self]), rfl, ?_⟩
    env_eq
  refine Runs.bind (runs_contents hv hp hr4 (v := w) (by rw [Env.upd_ne hbt, Env.upd_ne hbu, hb])) fun x s5 env5 hr5 e => ?_
  obtain ⟨rfl, rfl⟩ := e
  rw [sw] at hr5
  refine Runs.bind (Runs.mono (runs_upperInto (L := L) hv hp x hr5) (fun _ _ h => h) fun e env' h => ?_) fun _ s6 env6 hr6 e => ?_
  · obtain ⟨rfl, y, rfl⟩ := h
    rw [← sw]
    exact bad _ _
  subst e
  rw [← sw] at hr6
  refine Runs.bind (runs_contents hv hp hr6 (v := v) (by rw [Env.upd_ne hat, Env.upd_ne hau, ha])) fun y s7 env7 hr7 e => ?_
  obtain ⟨rfl, rfl⟩ := e
  refine Runs.bind (Runs.mono (runs_upperInto (L := L) hv hp y hr7) (fun _ _ h => h) fun e env' h => ?_) fun _ s8 env8 hr8 e => ?_
  · obtain ⟨rfl, z, rfl⟩ := h
    exact bad _ _
  subst e
  simp only [List.nil_append] at hr8
  refine Runs.mono (hf t u s8 _ hr8 Env.upd_self (by rw [Env.upd_ne htu.symm, Env.upd_self])) (fun x' env' h => ?_) fun _ _ h => h.elim
  obtain ⟨rfl, rfl⟩ := h
  obtain ⟨h1, h2, -, h3⟩ := bad (x.map L.toupper) (y.map L.toupper)
  exact ⟨h1, h2, rfl, h3⟩

/-- How a function ends that answers a question but needs memory to do it. -/
theorem answers_or_of (hv : cfg.Valid) (hp : cfg.Physical) {α : Type} {m : SM α} {x : α}
    (h : Runs cfg m s (fun y env' => y = x ∧ env' = env) (NoMemory env)) : Answers cfg s env m x ∨ FailsClean cfg s env m := by
  unfold Runs at h
  cases hm : m s with
  | ub => rw [hm] at h; exact h.elim
  | throw e t =>
    rw [hm] at h
    obtain ⟨_, ⟨rfl, rfl⟩, h1, -, h2⟩ := h
    exact Or.inr ⟨t, hm, h2 rfl, allKeep_reach hv hp h1, h1⟩
  | ok a t =>
    rw [hm] at h
    obtain ⟨_, ⟨rfl, rfl⟩, h, _⟩ := h
    exact Or.inl ⟨t, hm, allKeep_reach hv hp h, h⟩

theorem runs_rfindP (hv : cfg.Valid) (hp : cfg.Physical) {L : Libc} (hr : Reach cfg s env) {o r lpos : Nat} {v w : Bytes} {n : Nat}
    (h : env o = .val v) (hw : env r = .val w) (hf : Str.rfind L v w lpos = .ret n) :
    Runs cfg (rfindP L o r lpos) s (fun x env' => x = n ∧ env' = env) E := by
  unfold rfindP
  refine Runs.bind (runs_contents hv hp hr h) fun _ s1 env1 hr1 e => ?_
  obtain ⟨rfl, rfl⟩ := e
  refine Runs.bind (runs_contents hv hp hr1 hw) fun _ s2 env2 hr2 e => ?_
  obtain ⟨rfl, rfl⟩ := e
  exact runs_liftE hf hr2

theorem len_npos (hv : cfg.Valid) (hp : cfg.Physical) (hr : Reach cfg s env) {a : Nat} {v : Bytes} (ha : env a = .val v) : v.length ≤ npos := by
  have hl := hr.len_lt hv hp ha
  unfold maxCells at hl
  unfold npos
  omega

/-- `a.rfind(b, lpos)`. -/
theorem c71_rfind (hv : cfg.Valid) (hp : cfg.Physical) {L : Libc} (hL : L.Ok) (hr : Reach cfg s env) {a b : Nat} {v w : Bytes}
    (ha : env a = .val v) (hb : env b = .val w) (hw : w ≠ []) (lpos : Nat) :
    ∃ r, Finds Largest (fun i => lpos ≤ i ∧ OccursAt w v i) npos r ∧ Answers cfg s env (rfindP L a b lpos) r := by
  obtain ⟨r, h1, h2⟩ := c22_rfind hL (len_npos hv hp hr ha) hw lpos
  exact ⟨r, h2, answers_of hv hp (runs_rfindP hv hp hr ha hb h1)⟩

/-- `a.ifind(b)`; the two may be the same object. -/
theorem c71_ifind (hv : cfg.Valid) (hp : cfg.Physical) {L : Libc} (hL : L.Ok) (hr : Reach cfg s env) {a b : Nat} {v w : Bytes}
    (ha : env a = .val v) (hb : env b = .val w) :
    ∃ r, Finds Smallest (OccursUpTo L.toupper w v) npos r ∧
      (Answers cfg s env (ifindP cfg L a b) r ∨ FailsClean cfg s env (ifindP cfg L a b)) := by
  obtain ⟨r, h1, h2⟩ := c23_ifind hL (len_npos hv hp hr ha) w
  exact ⟨r, h2, answers_or_of hv hp (runs_upperBoth hv hp hr ha hb fun t u s1 env1 hr1 ht hu => runs_findP hv hp hr1 ht hu h1)⟩

/-- `a.rifind(b)` with a non-empty `b`; the lower bound is ignored (C23). -/
theorem c71_rifind_partial (hv : cfg.Valid) (hp : cfg.Physical) {L : Libc} (hL : L.Ok) (hr : Reach cfg s env) {a b : Nat} {v w : Bytes}
    (ha : env a = .val v) (hb : env b = .val w) (hw : w ≠ []) (lpos : Nat) :
    ∃ r, Finds Largest (OccursUpTo L.toupper w v) npos r ∧
      (Answers cfg s env (rifindP cfg L a b lpos) r ∨ FailsClean cfg s env (rifindP cfg L a b lpos)) := by
  obtain ⟨r, h1, h2⟩ := c23_rifind_partial hL (len_npos hv hp hr ha) hw
  exact ⟨r, h2, answers_or_of hv hp (runs_upperBoth hv hp hr ha hb fun t u s1 env1 hr1 ht hu => runs_rfindP hv hp hr1 ht hu h1)⟩

end

/-! ## Concrete cases -/

example : Answers byteCfg stW envW (copyP 1 2 [1, 2, 3]) (2, [98, 44, 3]) :=
  c71_copy byteCfg_valid byteCfg_physical reachW (a := 1) (v := [98, 44, 97]) rfl (by decide)
example : Answers byteCfg stW envW (dupP 1 true (fun _ => 7)) [98, 44, 97, 0] :=
  (c71_dup byteCfg_valid byteCfg_physical reachW (a := 1) (v := [98, 44, 97]) rfl _).1
example := c71_encode byteCfg_valid byteCfg_physical rfl reachW (a := 1) (v := [98, 44, 97]) rfl
example : got (base64EncodeP byteCfg 1 none stW) = some "Yixh".toUTF8.toList := by decide +kernel
example : (match ifindP byteCfg glibc 0 1 stW with | .ok n _ => n | _ => 99) = 2 := by decide +kernel
example : (match rifindP byteCfg glibc 0 3 0 stW with | .ok n _ => n | _ => 99) = 3 := by decide +kernel
example : got (trimmedP byteCfg glibc 9 1 stW) = some [98, 44, 97] := by decide +kernel

/-! ## The buffer is lost when there is no memory for the String -/

/-- An allocator that refuses every request after the one of the String below. -/
def tightByte : Cfg UInt8 := { byteCfg with allocOk := fun g n => decide (n < maxCells) && decide (g ≤ 2) }

theorem tightByte_physical : tightByte.Physical := by
  intro g n h
  simp [tightByte]; intro h'; unfold maxCells at *; omega

def stLast : St UInt8 := (exec tightByte {} [.cstrCtor [97, 98, 99]]).getD {}
def envLast : Env UInt8 := Env.empty.upd 0 (.val [97, 98, 99])

theorem reachLast : Reach tightByte stLast envLast :=
  Reach.next (show tightByte.Valid from byteCfg_valid) tightByte_physical .init (op := .cstrCtor [97, 98, 99]) (x := .obj 0)
    (by simp [Pre, IsStr, tightByte, byteCfg]) rfl (fun h => h) (Or.inl ⟨0, rfl, rfl, rfl⟩)

/-- `base64Encode("abc")` throws and leaves its buffer allocated. -/
theorem c71_refuted_leak : ∃ s', base64EncodeH tightByte true 0 none stLast = (.throw .badAlloc s', 1) := by
  have h : (match base64EncodeH tightByte true 0 none stLast with | (.throw .badAlloc _, k) => k | _ => 99) = 1 := by decide +kernel
  generalize base64EncodeH tightByte true 0 none stLast = r at *
  match r with
  | (.throw .badAlloc s', k) => exact ⟨s', by rw [show k = 1 from h]⟩
  | (.throw (.outOfRange) s', k) => cases h
  | (.ok _ _, k) => cases h
  | (.ub, k) => cases h

end Bdlib.Rca
