import Verif.Model.LoadBalance
import Verif.Model.Containers
import Verif.Model.Net
/-! `SchedulerPatchData::apply_change_list`, /repo/src/shamrock/src/scheduler/SchedulerPatchData.cpp:38-194. The patch data type `D` and the
message type `P` are parameters, with the `serializer` and `deserializer` lambdas (lines 108-121); `ser` also covers the checks of
`send_messages` (lines 52-60: size multiple of 8, at most `i32_max` words), which throw. -/
namespace Shamrock

/-- `send_payloads`, SchedulerPatchData.cpp:123-138, on rank `r`; `owned_data.get` throws for an unknown id. -/
def aclSends {D P : Type} (ser : D → Res P) (r : Nat) (data : List (Nat × D)) : List ChangeOp → Res (List (NSend P))
  | [] => .ok []
  | op :: ops =>
    if op.ownerOld = r then
      match ddGet data op.patchId with
      | none => .throws
      | some d => (ser d).bind fun p => (aclSends ser r data ops).bind fun l => .ok (⟨op.ownerNew, op.tag, p⟩ :: l)
    else aclSends ser r data ops

/-- `recv_payloads`, SchedulerPatchData.cpp:143-155. -/
def aclRecvs (r : Nat) (ops : List ChangeOp) : List NRecv := (ops.filter fun op => op.ownerNew = r).map fun op => ⟨op.ownerOld, op.tag⟩

/-- The insertion loop, SchedulerPatchData.cpp:163-181, where `got k` is the buffer received by message `k`. -/
def aclInsert {D P : Type} (des : P → Res D) (r : Nat) (got : Nat → Option P) : List ChangeOp → Nat → List (Nat × D) → Res (List (Nat × D))
  | [], _, m => .ok m
  | op :: ops, idx, m =>
    if op.ownerNew = r then
      match got idx with
      | none => .ub
      | some p => (des p).bind fun d =>
        match ddAddObj m op.patchId d with
        | (m', some ()) => aclInsert des r got ops (idx + 1) m'
        | (_, none) => .throws
    else aclInsert des r got ops idx m

/-- The erasures of the last loop, SchedulerPatchData.cpp:190-192. -/
def aclErase {D : Type} (r : Nat) : List ChangeOp → List (Nat × D) → List (Nat × D)
  | [], m => m
  | op :: ops, m => aclErase r ops (if op.ownerOld = r then ddErase m op.patchId else m)

/-- The owner updates of the last loop, SchedulerPatchData.cpp:187. -/
def aclOwners : List ChangeOp → List Patch → Res (List Patch)
  | [], ps => .ok ps
  | op :: ops, ps => match ps[op.patchIdx]? with
    | none => .ub
    | some p => aclOwners ops (ps.set op.patchIdx { p with nodeOwnerId := op.ownerNew })

/-- What rank `r` does after its `Waitall`, SchedulerPatchData.cpp:163-193. -/
def aclFinish {D P : Type} (des : P → Res D) (r : Nat) (got : Nat → Option P) (ops : List ChangeOp) (m : List (Nat × D)) :
    Res (List (Nat × D)) := (aclInsert des r got ops 0 m).bind fun m' => .ok (aclErase r ops m')

end Shamrock
