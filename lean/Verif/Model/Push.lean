import Verif.Model.Reattribute
/-! Pushing data into the scheduler: /repo/src/shamrock/include/shamrock/scheduler/DataInserterUtility.hpp:112-163. -/
namespace Shamrock

/-- `Patch::is_err_mode`, /repo/src/shamrock/include/shamrock/patch/Patch.hpp:56,119 (`err_node_flag` is `u32_max`). -/
def Patch.isErrMode (p : Patch) : Bool := p.nodeOwnerId == 2 ^ 32 - 1

/-- `sched.for_each_local_patchdata` with the body of `push_patch_data`: DataInserterUtility.hpp:128-134 and PatchScheduler.hpp:305-313. `get_pdat`
throws for a missing id (even when nothing is inserted). -/
def pushLoop {α : Type} (ins : PLayer α) : List Patch → Bool → RankData α → Res (RankData α)
  | [], _, d => .ok d
  | p :: ps, should, d =>
    if p.isErrMode then pushLoop ins ps should d
    else match mfind d p.idPatch with
      | none => .throws
      | some _ => if should then (insertInto ins p.idPatch d).bind fun d' => pushLoop ins ps false d' else pushLoop ins ps should d

/-- The insertion stage of `push_patch_data` on one rank, DataInserterUtility.hpp:120-139. `loc` is the local patch list. -/
def pushInsert {α : Type} (thr : Nat) (ins : PLayer α) (loc : List Patch) (d : RankData α) : Res (RankData α) :=
  ins.objCnt.bind fun n => if n < thr then pushLoop ins loc true d else .throws

/-- The value returned: `allreduce_sum` of the object counts (u64, wrapping), DataInserterUtility.hpp:122,162. -/
def pushCount {α : Type} : List (PLayer α) → Res Nat
  | [] => .ok 0
  | l :: ls => l.objCnt.bind fun n => (pushCount ls).bind fun s => .ok ((n + s) % 2 ^ 64)

/-- `patch_list.global[patch_list.id_patch_to_global_idx[id]]`, PatchScheduler.hpp:263-265: the index table is an `unordered_map` filled with the ids of
the list (distinct), whose `operator[]` yields 0 for an unknown id. -/
def patchOf (global : List Patch) (id : Nat) : Option Patch := if global.any (fun p => p.idPatch == id) then global.find? (fun p => p.idPatch == id) else global[0]?

/-- `check_locality_t`, /repo/src/shamrock/src/scheduler/PatchScheduler.cpp:660-679, on one rank. `box` is `patch_coord_to_domain`, `pos` the main field
value as a position. -/
def checkLocality {α F : Type} [LinearOrder F] (box : PatchCoord → V3 F × V3 F) (pos : α → V3 F) (global : List Patch) : RankData α → Res Unit
  | [] => .ok ()
  | (id, l) :: d =>
    match patchOf global id with
    | none => .ub
    | some p =>
      (if p.isErrMode then Res.ok () else match l with
        | [] => Res.throws
        | f :: _ => f.checkErrRange fun v => inPatchConverted (pos v) (box p.coord).1 (box p.coord).2).bind fun _ =>
      checkLocality box pos global d

end Shamrock
