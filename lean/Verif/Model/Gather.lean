import Verif.Model.ChangeList
import Verif.Model.LayerSerial
/-! `PatchScheduler::gather_data`, /repo/src/shamrock/src/scheduler/PatchScheduler.cpp:890-1017. The patch data type `D`, its `serializer`
and `deserializer` lambdas (lines 950-964) are parameters; a message is its list of bytes. -/
namespace Shamrock

/-- The loop filling `send_payloads`, PatchScheduler.cpp:966-985, on rank `r`: patch `i` of the replicated list goes, when `r` owns it, to rank
0 with tag `i` (`i32(i)`, lists shorter than 2^31). `pdata.get` throws for an unknown id. -/
def gatherPayloads {D : Type} (ser : D → Res (List Byte)) (r : Nat) (data : List (Nat × D)) : Nat → List Patch → Res (List (NSend (List Byte)))
  | _, [] => .ok []
  | i, p :: ps =>
    if p.nodeOwnerId = r then
      match ddGet data p.idPatch with
      | none => .throws
      | some d => (ser d).bind fun b => (gatherPayloads ser r data (i + 1) ps).bind fun l => .ok (⟨0, i, b⟩ :: l)
    else gatherPayloads ser r data (i + 1) ps

/-- The checks of `send_messages`, PatchScheduler.cpp:902-910 (`i32_max` = 2^31 - 1). -/
def sendCheck (b : List Byte) : Res Unit :=
  if b.length % 8 ≠ 0 then .throws else if b.length / 8 > 2 ^ 31 - 1 then .throws else .ok ()

/-- `send_messages`, PatchScheduler.cpp:896-921: the messages posted (a failed check throws). -/
def sendMessages : List (NSend (List Byte)) → Res (List (NSend (List Byte)))
  | [] => .ok []
  | m :: l => (sendCheck m.pay).bind fun _ => (sendMessages l).bind fun l' => .ok (m :: l')

/-- `send_payloads` built and posted by `gather_data(_rank)` on rank `r`, PatchScheduler.cpp:966-988. The argument `_rank` is not used. -/
def gatherSends {D : Type} (ser : D → Res (List Byte)) (_rank r : Nat) (data : List (Nat × D)) (ps : List Patch) : Res (List (NSend (List Byte))) :=
  (gatherPayloads ser r data 0 ps).bind sendMessages

/-- `recv_payloads`, PatchScheduler.cpp:990-1000. The argument `_rank` of `gather_data` is not used: only rank 0 receives. -/
def gatherRecvs (_rank r : Nat) (ps : List Patch) : List NRecv := if r = 0 then ps.mapIdx fun i p => ⟨p.nodeOwnerId, i⟩ else []

/-- The buffer of a received message, PatchScheduler.cpp:930-938: `cnt` is an `i32` (its value is below 2^31 by the check of the sender), and
`cnt * 8` an `i32` product: undefined when it does not fit. -/
def recvAlloc (b : List Byte) : Res Unit := if b.length / 8 * 8 < 2 ^ 31 then .ok () else .ub

/-- The allocations of `recv_probe_messages`, then the deserializations, PatchScheduler.cpp:1002-1016. -/
def gatherAllocs (got : Nat → Option (List Byte)) : Nat → Nat → Res Unit
  | _, 0 => .ok ()
  | k, n + 1 => match got k with
    | none => .ub
    | some b => (recvAlloc b).bind fun _ => gatherAllocs got (k + 1) n

def gatherDeser {D : Type} (des : List Byte → Res D) (got : Nat → Option (List Byte)) : Nat → Nat → Res (List D)
  | _, 0 => .ok []
  | k, n + 1 => match got k with
    | none => .ub
    | some b => (des b).bind fun d => (gatherDeser des got (k + 1) n).bind fun l => .ok (d :: l)

/-- What `gather_data` returns on a rank, given its received messages. -/
def gatherFinish {D : Type} (des : List Byte → Res D) (rank r : Nat) (got : Nat → Option (List Byte)) (ps : List Patch) : Res (List D) :=
  (gatherAllocs got 0 (gatherRecvs rank r ps).length).bind fun _ => gatherDeser des got 0 (gatherRecvs rank r ps).length

end Shamrock
