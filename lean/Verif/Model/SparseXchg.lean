import Verif.Model.SparseExchange
/-! Payload based sparse communication: /repo/src/shamalgs/include/shamalgs/collective/sparseXchg.hpp and
/repo/src/shamalgs/src/collective/sparseXchg.cpp. `sends` is the list, indexed by rank, of the messages each rank passes. Ranks are `i32` in the
code and natural numbers here. A rank that throws leaves the others blocked: result `throws`. -/
namespace Shamrock

/-- `SendPayload`, sparseXchg.hpp:46-49: receiver and bytes. -/
structure SxMsg (B : Type) where
  rcv : Nat
  pay : List B
deriving DecidableEq, Repr

/-- `SparseCommTable::build`, sparseXchg.hpp:60-72, local part of rank `r`. -/
def sxLocal {B : Type} (r : Nat) (ms : List (SxMsg B)) : List Nat := ms.map fun m => commPack r m.rcv

/-- `SparseCommTable::build`, sparseXchg.hpp:60-72: `global_comm_ranks`. -/
def sxTable {B : Type} (sends : List (List (SxMsg B))) : Res (List Nat) :=
  (vectorAllgatherv 0 (sends.zipIdx.map fun x => sxLocal x.2 x.1) []).bind fun g => .ok g.1

/-- check_payload_size_is_int over the messages of one rank, sparseXchg.cpp:57-80 and 412-417. -/
def sxSizes {B : Type} : List (SxMsg B) → Res (List Nat)
  | [] => .ok []
  | m :: ms => if 2 ^ 31 ≤ m.pay.length then .throws else (sxSizes ms).bind fun l => .ok (m.pay.length :: l)

/-- The same on all ranks. -/
def sxSizesAll {B : Type} : List (List (SxMsg B)) → Res (List (List Nat))
  | [] => .ok []
  | ms :: l => (sxSizes ms).bind fun a => (sxSizesAll l).bind fun b => .ok (a :: b)

/-- `comm_sizes`, sparseXchg.cpp:412-421. -/
def sxCommSizes {B : Type} (sends : List (List (SxMsg B))) : Res (List Nat) :=
  (sxSizesAll sends).bind fun l => (vectorAllgatherv 0 l []).bind fun g => .ok g.1

/-- The receive payloads created before the exchange, sparseXchg.cpp:424-439: sender and a buffer of `comm_sizes[i]` bytes. -/
def sxSlots {B : Type} (dflt : B) (r : Nat) (cs : List Nat) : List Nat → Nat → Res (List (Nat × List B))
  | [], _ => .ok []
  | v :: l, i =>
    if (commUnpack v).2 = r then
      match cs[i]? with
      | none => .ub
      | some c => (sxSlots dflt r cs l (i + 1)).bind fun t => .ok (((commUnpack v).1, List.replicate c dflt) :: t)
    else sxSlots dflt r cs l (i + 1)

/-- The send of iteration `i`, sparseXchg.cpp:463-497. `.at(send_idx)` throws. -/
def sxSend {B : Type} (r : Nat) (ms : List (SxMsg B)) (v tag sendIdx : Nat) : Res (Option (NSend (List B))) :=
  if (commUnpack v).1 = r then
    match ms[sendIdx]? with
    | none => .throws
    | some m => .ok (some ⟨(commUnpack v).2, tag, m.pay⟩)
  else .ok none

/-- The receive of iteration `i`, sparseXchg.cpp:499-525: `comm_sizes[i]` bytes must fit in the buffer. -/
def sxRecv {B : Type} (r : Nat) (cs : List Nat) (slots : List (Nat × List B)) (v tag i recvIdx : Nat) : Res (Option NRecv) :=
  if (commUnpack v).2 = r then
    match slots[recvIdx]? with
    | none => .throws
    | some s =>
      match cs[i]? with
      | none => .ub
      | some c => if c ≤ s.2.length then .ok (some ⟨(commUnpack v).1, tag⟩) else .ub
  else .ok none

/-- What rank `r` posts in each iteration, sparseXchg.cpp:444-556 (the in flight limit is in the network semantics). -/
def sxLoop {B : Type} (r : Nat) (ms : List (SxMsg B)) (cs : List Nat) (slots : List (Nat × List B)) :
    List Nat → Nat → Nat → Nat → List Nat → Res (List (XIter (List B)))
  | [], _, _, _, _ => .ok []
  | v :: l, i, sendIdx, recvIdx, tm =>
    match tm[(commUnpack v).1]? with
    | none => .ub
    | some tag =>
      (sxSend r ms v tag sendIdx).bind fun s =>
      (sxRecv r cs slots v tag i recvIdx).bind fun q =>
      (sxLoop r ms cs slots l (i + 1) (if (commUnpack v).1 = r then sendIdx + 1 else sendIdx) (if (commUnpack v).2 = r then recvIdx + 1 else recvIdx)
        (tm.set (commUnpack v).1 (tag + 1))).bind fun t => .ok (⟨s, q⟩ :: t)

/-- Posts of rank `r` in `base_sparse_comm` (sparseXchg.hpp:93-115), with its receive payloads before completion. `recv0`: contents of
`message_recv` on entry. -/
def sxPosts {B : Type} (dflt : B) (sends : List (List (SxMsg B))) (recv0 : List (Nat × List B)) (r : Nat) :
    Res (List (Nat × List B) × List (XIter (List B))) :=
  (sxTable sends).bind fun tab =>
  (sxCommSizes sends).bind fun cs =>
  (sxSlots dflt r cs tab 0).bind fun new =>
  (sxLoop r (sends.getD r []) cs (recv0 ++ new) tab 0 0 0 (List.replicate sends.length 0)).bind fun posts => .ok (recv0 ++ new, posts)

/-- Effect of the completed receives: the payload received in iteration `i` overwrites the beginning of the buffer at `recv_idx`; a message longer
than the count posted is an MPI error. -/
def sxStore {B : Type} (got : Nat → Option (List B)) : List (XIter (List B)) → Nat → Nat → List (Nat × List B) → Res (List (Nat × List B))
  | [], _, _, slots => .ok slots
  | it :: l, i, recvIdx, slots =>
    if it.recv.isSome then
      match slots[recvIdx]?, got i with
      | some s, some p => (blockWrite s.2 0 p).bind fun b => sxStore got l (i + 1) (recvIdx + 1) (slots.set recvIdx (s.1, b))
      | _, _ => .ub
    else sxStore got l (i + 1) recvIdx slots

/-- One complete execution of `base_sparse_comm` on all ranks, with `message_recv` empty, ends with `res`. `lim` is SHAM_SPARSE_COMM_INFLIGHT_LIM: a
rank waits while more than `lim` requests are incomplete (sparseXchg.cpp:528-555), that is, it goes on when fewer than `lim + 1` are. -/
def SxEnds {B : Type} (dflt : B) (lim : Nat) (buf : Bool) (sends : List (List (SxMsg B))) (res : List (List (Nat × List B))) : Prop :=
  ∃ (slots : Nat → List (Nat × List B)) (posts : Nat → List (XIter (List B))) (k : Nat) (s : XState (List B)),
    (∀ r < sends.length, sxPosts dflt sends [] r = .ok (slots r, posts r)) ∧
    XRun sends.length sends.flatten.length (lim + 1) buf (fun r i => (posts r).getD i ⟨none, none⟩) k s ∧
    s.Final sends.length sends.flatten.length (fun r i => (posts r).getD i ⟨none, none⟩) ∧
    res.length = sends.length ∧
    ∀ (r : Nat) x, res[r]? = some x → sxStore (s.got r) (posts r) 0 0 (slots r) = .ok x

/-! ### Batches -/

/-- The loop of sparseXchg.hpp:142-145: `j` from `i` while `j < bound` (both compared as u32) and `j < message_send.size()`. The first argument
bounds the number of turns (the size suffices). -/
def sxSliceLoop {T : Type} (ms : List T) (bound : Nat) : Nat → Nat → List T
  | 0, _ => []
  | f + 1, j =>
    if j < bound then
      match ms[j]? with
      | none => []
      | some m => m :: sxSliceLoop ms bound f (j + 1)
    else []

/-- Messages of one batch on one rank, sparseXchg.hpp:139-145; a negative `j` converts to a huge size_t. `i + max` is computed in u32. -/
def sxSlice {T : Type} (ms : List T) (i : Int) (mx : Nat) : List T :=
  if i < 0 then [] else sxSliceLoop ms ((i.toNat + mx) % 2 ^ 32) ms.length i.toNat

/-- `i += max_simultaneous_send`, sparseXchg.hpp:153: sum in u32, converted back to int. -/
def sxNext (i : Int) (mx : Nat) : Int :=
  let s := (i + (mx : Int)) % 2 ^ 32
  if s < 2 ^ 31 then s else s - 2 ^ 32

/-- `send_max_count`, sparseXchg.hpp:123-125 (`message_send.size()` below 2^31). -/
def sxMaxCount {T : Type} (sends : List (List T)) : Nat := (sends.map List.length).foldl max 0

/-- The while loop of base_sparse_comm_max_comm, sparseXchg.hpp:131-154, on all ranks together: `ex sends res` says that one base_sparse_comm of
`sends` may end with `res`. The batches of different ranks do not overlap: the gather of the counts at the start of each base_sparse_comm needs all
ranks. -/
inductive SxBatches {M R : Type} (ex : List (List M) → List (List R) → Prop) (sends : List (List M)) (mx : Nat) :
    Int → List (List R) → List (List R) → Prop where
  | done (i : Int) (acc : List (List R)) (h : ¬ i < (sxMaxCount sends : Int)) : SxBatches ex sends mx i acc acc
  | step (i : Int) (acc res out : List (List R)) (h : i < (sxMaxCount sends : Int)) (he : ex (sends.map fun ms => sxSlice ms i mx) res)
      (hr : SxBatches ex sends mx (sxNext i mx) (List.zipWith (· ++ ·) acc res) out) : SxBatches ex sends mx i acc out

/-- base_sparse_comm_max_comm, sparseXchg.hpp:117-155: may end with `out`, from the receive lists `recv0`. -/
def SxMaxCommEnds {B : Type} (dflt : B) (lim : Nat) (buf : Bool) (sends : List (List (SxMsg B))) (mx : Nat) (recv0 out : List (List (Nat × List B))) :
    Prop :=
  SxBatches (SxEnds dflt lim buf) sends mx 0 recv0 out

end Shamrock
