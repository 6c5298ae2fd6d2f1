import Verif.Rca.Demand
import Verif.Spec.Need

/-!
# No call asks for more memory than it needs
-/

namespace Bdlib.Rca
open Bdlib Bdlib.Spec St

variable {T : Type} {cfg : Cfg T}

theorem room_succ (n : Nat) : room cfg n ≤ n + 1 := by unfold room; split <;> omega

theorem Modest.mapOut {α : Type} {ok : Nat → Nat → Bool} {B : Nat} {m : M T α} {f : α → Out T} {s : St T}
    (h : Modest ok B m s) : Modest ok B (mapOut m f) s := h.calm fun _ => calm_pure _

theorem covers_of {s : St T} {env : Env T} {op : Op T} {o n : Nat} (hn : n = op.needs env) (hg : op.grows = true) :
    Covers cfg (op.demand cfg.scale env) s o n := by
  unfold Op.demand
  rw [if_pos hg, ← hn]
  have h1 := room_succ (cfg := cfg) n
  refine ⟨by omega, by omega, ?_, ?_⟩
  · have := le_peak cfg.scale (Nat.zero_le n); omega
  · rcases Nat.lt_or_ge n (ownRoom s o) with h | h
    · exact .inr (by omega)
    · refine .inl ?_
      have := le_peak cfg.scale h
      omega

theorem needs_le (scale : Nat → Nat) (env : Env T) (op : Op T) : op.needs env + 1 ≤ op.demand scale env := by
  unfold Op.demand; split <;> omega

theorem fresh_le {scale : Nat → Nat} {env : Env T} {op : Op T} (hg : op.grows = true) : scale 0 ≤ op.demand scale env := by
  unfold Op.demand; rw [if_pos hg]; have := le_peak scale (Nat.zero_le (op.needs env)); omega

theorem modest_run [DecidableEq T] {s : St T} {env : Env T} (hwf : WF cfg s) (hc : Caps s) (hA : Abs s env) {op : Op T}
    (hpre : Pre cfg (shared s) env op) : Modest cfg.allocOk (op.demand cfg.scale env) (run cfg op) s := by
  have hn := needs_le cfg.scale env op
  cases op with
  | ctor => exact Modest.mapOut (Calm.modest (fun _ _ => .newObj _) _ _ _)
  | copyCtor r => exact Modest.mapOut (Calm.modest (fun _ _ => .copyCtor _) _ _ _)
  | moveCtor r => exact Modest.mapOut (Calm.modest (fun _ _ => .moveCtor _) _ _ _)
  | sizeCtor n => exact Modest.mapOut (Modest.sizeCtor (by omega) (by simp only [Op.needs] at hn; omega))
  | fillCtor n x => exact Modest.mapOut (Modest.fillCtor (by omega) (by simp only [Op.needs] at hn; omega) (fresh_le rfl))
  | listCtor xs => exact Modest.mapOut (Modest.listCtor (by omega) (by simp only [Op.needs] at hn; omega))
  | rangeCtor xs => exact Modest.mapOut (Modest.rangeCtor hwf (by omega) (by simp only [Op.needs] at hn; omega) (fresh_le rfl))
  | strCtor xs =>
    simp only [run]
    split
    · exact Modest.mapOut (Modest.strCtor (by omega) hn)
    · exact Calm.modest (fun _ _ => .undef) _ _ _
  | cstrCtor xs =>
    simp only [run]
    split
    · exact Modest.mapOut (Modest.cstrCtor (by omega) hn)
    · exact Calm.modest (fun _ _ => .undef) _ _ _
  | charCtor x =>
    simp only [run]
    split
    · exact Modest.mapOut (Modest.charCtor hn)
    · exact Calm.modest (fun _ _ => .undef) _ _ _
  | substring r a b => exact Modest.mapOut (Calm.modest (fun _ _ => .substring _ _ _) _ _ _)
  | destroy o => exact Modest.mapOut (Calm.modest (fun _ _ => .destroy _ _) _ _ _)
  | copyAssign o r => exact Modest.mapOut (Calm.modest (fun _ _ => .copyAssign _ _) _ _ _)
  | moveAssign o r => exact Modest.mapOut (Calm.modest (fun _ _ => .moveAssign _ _) _ _ _)
  | swap o r => exact Modest.mapOut (Calm.modest (fun _ _ => .swap _ _) _ _ _)
  | clear o => exact Modest.mapOut (Calm.modest (fun _ _ => .clear _) _ _ _)
  | assignList o xs => exact Modest.mapOut (Modest.assignList (by omega) (Nat.le_trans (room_succ _) hn))
  | assignStd o xs =>
    simp only [run]
    split
    · exact Modest.mapOut (Modest.assignStd (by omega) hn)
    · exact Calm.modest (fun _ _ => .undef) _ _ _
  | assignCstr o xs =>
    simp only [run]
    split
    · exact Modest.mapOut (Modest.assignCstr (by omega) hn)
    · exact Calm.modest (fun _ _ => .undef) _ _ _
  | length o => exact Modest.mapOut (Calm.modest (fun _ _ => .length _) _ _ _)
  | read o i => exact Modest.mapOut (Calm.modest (fun _ _ => .read _ _) _ _ _)
  | «at» o i => exact Modest.mapOut (Calm.modest (fun _ _ => .at' _ _) _ _ _)
  | hash o => exact Modest.mapOut (Calm.modest (fun _ _ => .hash _ _) _ _ _)
  | cStr o =>
    simp only [run]
    split
    · exact Modest.mapOut (Modest.cStr (hA.view hpre.1) (covers_of rfl rfl))
    · exact Calm.modest (fun _ _ => .undef) _ _ _
  | begin o => exact Modest.mapOut (Modest.getOwnCopy (hA.view hpre) (covers_of rfl rfl))
  | reserve o n =>
    refine Modest.mapOut (Modest.reserve (by omega) (Nat.le_trans (room_succ _) ?_) (Nat.zero_le _)
      fun b _ h => by simp only [id]; have := room_succ (cfg := cfg) n; have := room_succ (cfg := cfg) 0; split at h <;> simp only [Op.needs] at hn <;> omega)
    simp only [Op.needs] at hn
    split <;> omega
  | resize o n => exact Modest.mapOut (Modest.resize (covers_of rfl rfl) hpre.2)
  | resizeFill o n x => exact Modest.mapOut (Modest.resizeFill (covers_of rfl rfl) hpre.2)
  | write o i x => exact Modest.mapOut ((Modest.getOwnCopy (hA.view hpre.1) (covers_of rfl rfl)).calm fun _ => calm_writeRange _ _ _)
  | slice o a b => exact Modest.mapOut (Calm.modest (fun _ _ => .slice _ _ _) _ _ _)
  | append o x => exact Modest.mapOut (Modest.eq (length_spec (hA.view hpre)) (Modest.insertItem (hA.view hpre) (covers_of rfl rfl)))
  | appendRca o r n =>
    exact Modest.mapOut (Modest.eq (length_spec (hA.view hpre.1)) (Modest.insertRcaN (hA.view hpre.1) (hA.view hpre.2)
      (covers_of rfl rfl)))
  | appendMove o r n =>
    exact Modest.mapOut (Modest.eq (length_spec (hA.view hpre.1)) (Modest.insertMoveN (hA.view hpre.1) (hA.view hpre.2)
      (covers_of rfl rfl)))
  | insertItem o p x => exact Modest.mapOut (Modest.insertItem (hA.view hpre) (covers_of rfl rfl))
  | insertRca o p r => exact Modest.mapOut (Modest.insertRca (hA.view hpre.1) (hA.view hpre.2.1) (covers_of rfl rfl))
  | insertRcaN o p r n => exact Modest.mapOut (Modest.insertRcaN (hA.view hpre.1) (hA.view hpre.2.1) (covers_of rfl rfl))
  | insertMove o p r => exact Modest.mapOut (Modest.insertMove (hA.view hpre.1) (hA.view hpre.2.1) (covers_of rfl rfl))
  | insertMoveN o p r n => exact Modest.mapOut (Modest.insertMoveN (hA.view hpre.1) (hA.view hpre.2.1) (covers_of rfl rfl))
  | insertRange o p xs => exact Modest.mapOut (Modest.insertRange hwf (hA.view hpre.1) hpre.2 (covers_of rfl rfl))
  | insertC o p xs => exact Modest.mapOut (Modest.insertC (hA.view hpre) (covers_of rfl rfl))
  | replaceItem o p x =>
    exact Modest.mapOut (Modest.checkPos (hA.view hpre.1)
      ((Modest.getOwnCopy (hA.view hpre.1) (covers_of rfl rfl)).calm fun _ => calm_writeRange _ _ _))
  | replaceRca o p r n =>
    exact Modest.mapOut (Modest.replaceRca (hA.view hpre.1) (hA.view hpre.2.1) (view_len_npos hwf hc (hA.view hpre.2.1))
      (covers_of rfl rfl))
  | replaceMove o p r n =>
    exact Modest.mapOut (Modest.replaceMove (hA.view hpre.1) (hA.view hpre.2.1) (view_len_npos hwf hc (hA.view hpre.2.1))
      (covers_of rfl rfl))
  | replaceC o p xs => exact Modest.mapOut (Modest.replaceC (hA.view hpre) (covers_of rfl rfl))
  | popBack o => exact Modest.mapOut (Calm.modest (fun _ _ => .popBack _) _ _ _)
  | dropFront o n => exact Modest.mapOut (Calm.modest (fun _ _ => .dropFront _ _) _ _ _)
  | dropBack o n => exact Modest.mapOut (Calm.modest (fun _ _ => .dropBack _ _) _ _ _)
  | arrDropFront o n => exact Modest.mapOut (Calm.modest (fun _ _ => .arrDropFront _ _) _ _ _)
  | arrDropBack o n => exact Modest.mapOut (Calm.modest (fun _ _ => .arrDropBack _ _) _ _ _)
  | shift o => exact Modest.mapOut (Calm.modest (fun _ _ => .shift _ _) _ _ _)
  | pop o => exact Modest.mapOut (Calm.modest (fun _ _ => .pop _ _) _ _ _)

/-- `bad_alloc` leaves an in-contract call only if the allocator refused it a request for no more than the call may ask for. -/
theorem refusedAt_of_throw [DecidableEq T] (hv : cfg.Valid) (hp : cfg.Physical) {s s' : St T} {env : Env T} (h : Reach cfg s env)
    {op : Op T} (hpre : Pre cfg (shared s) env op) (ht : run cfg op s = .throw .badAlloc s') :
    RefusedAt (op.demand cfg.scale env) cfg.allocOk s s' := by
  obtain ⟨hwf, hc, hA⟩ := h.inv hv hp
  have := modest_run hwf hc hA hpre
  unfold Modest at this
  rw [ht] at this
  exact this.2.2 rfl

end Bdlib.Rca
