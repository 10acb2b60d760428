import Verif.Model.Sched
/-! The balancing loop after data was pushed: /repo/src/shamrock/include/shamrock/scheduler/DataInserterUtility.hpp:48-97. -/
namespace Shamrock

/-- The load value of a patch, /repo/src/shammodels/sph/src/modules/ComputeLoadBalanceValue.cpp:22-29 (`owned_data.get(p.id_patch).get_obj_cnt()`; it is called for the ids
of `owned_patch_id`, whose data exists, and layers have fields of equal count, so that the two exceptions are not modelled). -/
def countLoad {α : Type} (s : Sched α) (r : Nat) (p : Patch) : Nat :=
  match mfind (s.data r) p.idPatch with
  | some l => (match l.objCnt with | .ok n => n | _ => 0)
  | none => 0

/-- What an execution of a step in the state `s` may choose: the iteration orders of the hash sets. -/
structure StepExec {α : Type} (e : StepEnv) (s : Sched α) : Prop where
  ls : (∀ x, x ∈ e.ls ↔ s.tree.leafKey x = true) ∧ e.ls.Nodup
  ps : (∀ x, x ∈ e.ps ↔ s.tree.polk x = true) ∧ e.ps.Nodup
  iterS : ∀ l, (e.iterS l).Perm l
  iterM : ∀ l, (e.iterM l).Perm l
  iterO : ∀ r l, (e.iterO r l).Perm l
  packOrder : ∀ n, (e.packOrder n).Perm (List.range n)

/-- The body of the loop of `balance_load`, DataInserterUtility.hpp:60-76, on all ranks; `load` is the user function `load_balance_update`. -/
def BalIter {α F P : Type} [LinearOrder F] (env : SchedEnv α F) (b : LBEnv α P) (W : Nat) (load : Sched α → Nat → Patch → Nat) (s s' : Sched α) : Prop :=
  ∃ s1 e1 s2 e2, updateLoads W (load s) s = .ok s1 ∧ StepExec e1 s1 ∧ SchedStep env b W e1 false false s1 s2 ∧ StepExec e2 s2 ∧ SchedStep env b W e2 true true s2 s'

/-- The loop of `balance_load`, DataInserterUtility.hpp:53-84: `BalRun n last s s'` when, with `n` iterations left and `npatch_last = last`, the loop entered in `s` ends
in `s'`. -/
inductive BalRun {α F P : Type} [LinearOrder F] (env : SchedEnv α F) (b : LBEnv α P) (W : Nat) (load : Sched α → Nat → Patch → Nat) : Nat → Nat → Sched α → Sched α → Prop where
  | out (last : Nat) (s : Sched α) : BalRun env b W load 0 last s s
  | stable (n last : Nat) (s s' : Sched α) (h : BalIter env b W load s s') (he : s'.global.length = last) : BalRun env b W load (n + 1) last s s'
  | again (n last : Nat) (s s1 s' : Sched α) (h : BalIter env b W load s s1) (he : s1.global.length ≠ last) (hr : BalRun env b W load n s1.global.length s1 s') :
      BalRun env b W load (n + 1) last s s'

/-- `balance_load`, DataInserterUtility.hpp:48-97: `max_runs = 30`, and `npatch_last` starts as the length of the global list. -/
def BalanceLoad {α F P : Type} [LinearOrder F] (env : SchedEnv α F) (b : LBEnv α P) (W : Nat) (load : Sched α → Nat → Patch → Nat) (s s' : Sched α) : Prop :=
  BalRun env b W load 30 s.global.length s s'

end Shamrock
