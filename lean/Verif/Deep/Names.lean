import Verif.Deep.TableSpec
import Verif.Deep.Scripts

/-!
# Objects by name
-/

namespace Bdlib.Deep
open Bdlib Bdlib.Spec

theorem All.upd_self {V : All} {x : Name} {y : Slot (Ty x.depth)} : V.upd x y x = y := by unfold All.upd; rw [dif_pos rfl]

theorem All.upd_ne {V : All} {x z : Name} {y : Slot (Ty x.depth)} (h : z ≠ x) : V.upd x y z = V z := by unfold All.upd; rw [dif_neg h]

theorem All.upd_upd {V : All} {x : Name} {y y' : Slot (Ty x.depth)} : (V.upd x y).upd x y' = V.upd x y' := by
  funext z
  by_cases h : z = x
  · subst h; rw [upd_self, upd_self]
  · rw [upd_ne h, upd_ne h, upd_ne h]

theorem All.upd_id {V : All} {x : Name} {y : Slot (Ty x.depth)} (h : V x = y) : V.upd x y = V := by
  funext z
  by_cases hz : z = x
  · subst hz; rw [upd_self, h]
  · rw [upd_ne hz]

/-- Exchange what is known about the objects of depth `i`. -/
def At.put : {i n : Nat} → At i n → Envs n → Env (Ty i) → Envs n
  | _, _, .here, E, e => E.put e
  | _, _, .up q, E, e => (q.put E.1 e, E.2)

theorem At.le : ∀ {i n : Nat}, At i n → i ≤ n
  | _, _, .here => Nat.le_refl _
  | _, _, .up q => Nat.le_succ_of_le q.le

theorem At.put_put : ∀ {i n : Nat} (q : At i n) (E : Envs n) (e f : Env (Ty i)), q.put (q.put E e) f = q.put E f
  | _, 0, .here, _, _, _ => Envs.put_put (n := 0) ..
  | _, n + 1, .here, _, _, _ => Envs.put_put (n := n + 1) ..
  | _, _, .up q, E, e, f => congrArg (·, E.2) (q.put_put E.1 e f)

theorem at?_eq : ∀ {i n : Nat} (q : At i n), at? i n = some q
  | _, 0, .here => by unfold at?; rw [dif_pos rfl]
  | _, n + 1, .here => by unfold at?; rw [dif_pos rfl]
  | _, n + 1, .up q => by
    unfold at?
    rw [dif_neg (by have := q.le; omega), at?_eq q]
    rfl

theorem At.env_put : ∀ {i n : Nat} (q : At i n) (E : Envs n) (e : Env (Ty i)), q.env (q.put E e) = e
  | _, 0, .here, E, e => Envs.top_put (n := 0) ..
  | _, n + 1, .here, E, e => Envs.top_put (n := n + 1) ..
  | _, _, .up q, E, e => q.env_put E.1 e

theorem At.put_env : ∀ {i n : Nat} (q : At i n) (E : Envs n), q.put E (q.env E) = E
  | _, 0, .here, E => Envs.put_top (n := 0) ..
  | _, n + 1, .here, E => Envs.put_top (n := n + 1) ..
  | _, _, .up q, E => by
    show (q.put E.1 (q.env E.1), E.2) = E
    rw [q.put_env E.1]; rfl

theorem At.env_put_ne : ∀ {n i j : Nat} (q : At i n) (r : At j n) (E : Envs n) (e : Env (Ty j)), i ≠ j → q.env (r.put E e) = q.env E
  | 0, _, _, .here, .here, _, _, h => absurd rfl h
  | n + 1, _, _, .here, .here, _, _, h => absurd rfl h
  | n + 1, _, _, .here, .up r, _, _, _ => rfl
  | n + 1, _, _, .up q, .here, _, _, _ => rfl
  | n + 1, _, _, .up q, .up r, E, e, h => q.env_put_ne r E.1 e h

variable {i j n : Nat}

theorem all_at (q : At i n) (E : Envs n) (o : Nat) : E.all ⟨i, o⟩ = q.env E o := by
  unfold Envs.all; rw [at?_eq q]

theorem all_put (q : At i n) (E : Envs n) (o : Nat) (y : Slot (Ty i)) : (q.put E ((q.env E).upd o y)).all = E.all.upd ⟨i, o⟩ y := by
  funext x
  obtain ⟨d, z⟩ := x
  by_cases hd : d = i
  · subst hd
    rw [all_at q, q.env_put]
    by_cases hz : z = o
    · subst hz; rw [Env.upd_self, All.upd_self]
    · rw [Env.upd_ne hz, All.upd_ne (fun e => hz (by injection e)), all_at q]
  · rw [All.upd_ne (fun e => hd (by injection e))]
    unfold Envs.all
    cases at? d n with
    | none => rfl
    | some r => show r.env _ z = r.env _ z; rw [r.env_put_ne q _ _ hd]

theorem all_inj : ∀ {n : Nat} {E F : Envs n}, E.all = F.all → E = F
  | 0, E, F, h => by
    refine (funext fun o => ?_ : (E : Env UInt8) = F)
    have := congrFun h ⟨0, o⟩
    rw [all_at .here, all_at .here] at this
    exact this
  | n + 1, (E1, E2), (F1, F2), h => by
    have h2 : E2 = F2 := by
      funext o
      have h3 := congrFun h ⟨n + 1, o⟩
      exact (all_at (n := n + 1) .here (E1, E2) o).symm.trans (h3.trans (all_at (n := n + 1) .here (F1, F2) o))
    have h1 : E1 = F1 := all_inj (by
      funext x
      obtain ⟨d, z⟩ := x
      have := congrFun h ⟨d, z⟩
      unfold Envs.all at this ⊢
      cases hq : at? d n with
      | none => rfl
      | some q =>
        dsimp only at this
        rw [at?_eq (.up q)] at this
        exact this)
    rw [h1, h2]

theorem none_env : ∀ {i n : Nat} (q : At i n) (o : Nat), q.env (Envs.none n) o = .dead
  | 0, _, .here, _ => rfl
  | _ + 1, _, .here, _ => rfl
  | _, _, .up q, o => none_env q o

theorem all_none : ∀ (n : Nat) (x : Name), (Envs.none n).all x = .dead := by
  intro n x
  unfold Envs.all
  cases at? x.depth n with
  | none => rfl
  | some q =>
    exact none_env q _

end Bdlib.Deep
