import Verif.Model.Collective
import Verif.Model.LimNet
/-! Sparse exchange of shamalgs: /repo/src/shamalgs/src/collective/sparse_exchange.cpp. Ranks are `i32` in the code and natural numbers here
(below 2^31); sizes and offsets are u64. `msgs` is the list, indexed by rank, of what each rank passes. -/
namespace Shamrock

/-- A message as the caller describes it, shamalgs/collective/sparse_exchange.hpp `CommMessageInfo` with the optional fields empty. -/
structure CMsgIn where
  size : Nat
  sender : Nat
  receiver : Nat
deriving DecidableEq, Repr

/-- `CommMessageInfo` with its optional fields: tag, (buffer id, offset) on the send and on the receive side. -/
structure CMsg where
  size : Nat
  sender : Nat
  receiver : Nat
  tag : Option Nat
  offSend : Option (Nat × Nat)
  offRecv : Option (Nat × Nat)
deriving DecidableEq, Repr

/-- `CommTable`, sparse_exchange.hpp, as returned at sparse_exchange.cpp:237-244. -/
structure CommTable where
  send : List CMsg
  all : List CMsg
  recv : List CMsg
  sendIds : List Nat
  recvIds : List Nat
  sendSizes : List Nat
  recvSizes : List Nat
deriving DecidableEq, Repr

/-- pack32, shambackends/math.hpp:613. -/
def commPack (a b : Nat) : Nat := (a * 2 ^ 32 % 2 ^ 64 + b) % 2 ^ 64

/-- unpack32, shambackends/math.hpp:615. -/
def commUnpack (v : Nat) : Nat × Nat := (v / 2 ^ 32 % 2 ^ 32, v % 2 ^ 32)

/-- The local part of fetch_global_message_data, sparse_exchange.cpp:60-77, on rank `r`. -/
def fetchLocal (r : Nat) : List CMsgIn → Res (List (Nat × Nat))
  | [] => .ok []
  | m :: ms => if m.sender ≠ r then .throws else (fetchLocal r ms).bind fun l => .ok ((commPack m.sender m.receiver, m.size) :: l)

/-- All ranks' local parts (a rank that throws leaves the others blocked in the gather). -/
def fetchLocals : Nat → List (List CMsgIn) → Res (List (List (Nat × Nat)))
  | _, [] => .ok []
  | r, ms :: l => (fetchLocal r ms).bind fun a => (fetchLocals (r + 1) l).bind fun b => .ok (a :: b)

/-- fetch_global_message_data, sparse_exchange.cpp:57-83. -/
def fetchGlobal (msgs : List (List CMsgIn)) : Res (List (Nat × Nat)) :=
  (fetchLocals 0 msgs).bind fun l => (vectorAllgatherv (0, 0) l []).bind fun g => .ok g.1

/-- unpack, sparse_exchange.cpp:32-54. -/
def unpackMsg (v : Nat × Nat) : Res CMsg :=
  if v.2 = 0 then .throws else .ok ⟨v.2, (commUnpack v.1).1, (commUnpack v.1).2, none, none, none⟩

/-- decode_all_message, sparse_exchange.cpp:86-93. -/
def decodeAll : List (Nat × Nat) → Res (List CMsg)
  | [] => .ok []
  | v :: l => (unpackMsg v).bind fun m => (decodeAll l).bind fun r => .ok (m :: r)

/-- compute_tags, sparse_exchange.cpp:96-111 (`tag_map[sender]` out of bounds is undefined). -/
def computeTags : List CMsg → List Nat → Res (List CMsg)
  | [], _ => .ok []
  | m :: ms, tm =>
    match tm[m.sender]? with
    | none => .ub
    | some t => (computeTags ms (tm.set m.sender (t + 1))).bind fun r => .ok ({ m with tag := some t } :: r)

/-- Layout state of one side: buffer sizes, `tmp_offset`, `buf_id` (sparse_exchange.cpp:127-136). -/
structure LaySt where
  sizes : List Nat
  off : Nat
  id : Nat
deriving DecidableEq, Repr

/-- Placement of one message, sparse_exchange.cpp:145-167 (send side) and 174-196 (receive side). -/
def layOne (mx size : Nat) (s : LaySt) : Res (LaySt × (Nat × Nat)) :=
  if size > mx then .throws
  else
    let sizes := if s.sizes.length = 0 then s.sizes ++ [0] else s.sizes
    let s' : LaySt := if u64add s.off size ≥ mx then ⟨sizes ++ [0], 0, s.id + 1⟩ else ⟨sizes, s.off, s.id⟩
    match s'.sizes[s'.id]? with
    | none => .throws
    | some v => .ok (⟨s'.sizes.set s'.id (u64add v size), u64add s'.off size, s'.id⟩, (s'.id, s'.off))

/-- One side of the loop body: place the message if it concerns this rank. -/
def layIf (c : Bool) (mx size : Nat) (s : LaySt) : Res (LaySt × Option (Nat × Nat)) :=
  if c then (layOne mx size s).bind fun (s, p) => .ok (s, some p) else .ok (s, none)

/-- The layout loop, sparse_exchange.cpp:137-202, on rank `r`. -/
def layAll (mx r : Nat) : List CMsg → LaySt → LaySt → Res (List CMsg × LaySt × LaySt)
  | [], s, t => .ok ([], s, t)
  | m :: ms, s, t =>
    (layIf (decide (m.sender = r)) mx m.size s).bind fun (s, ps) =>
    (layIf (decide (m.receiver = r)) mx m.size t).bind fun (t, pr) =>
    (layAll mx r ms s t).bind fun (l, s, t) => .ok ({ m with offSend := ps, offRecv := pr } :: l, s, t)

/-- Messages satisfying `c` with their global indices, sparse_exchange.cpp:214-235. -/
def pickMsgs (c : CMsg → Bool) (l : List CMsg) : List (CMsg × Nat) := l.zipIdx.filter fun x => c x.1

/-- build_sparse_exchange_table, sparse_exchange.cpp:113-245, on rank `r`. -/
def buildTable (msgs : List (List CMsgIn)) (mx r : Nat) : Res CommTable :=
  (fetchGlobal msgs).bind fun g =>
  (decodeAll g).bind fun all0 =>
  (computeTags all0 (List.replicate msgs.length 0)).bind fun all1 =>
  (layAll mx r all1 ⟨[], 0, 0⟩ ⟨[], 0, 0⟩).bind fun (all, s, t) =>
    let snd := pickMsgs (fun m => decide (m.sender = r)) all
    let rcv := pickMsgs (fun m => decide (m.receiver = r)) all
    .ok ⟨snd.map (·.1), all, rcv.map (·.1), snd.map (·.2), rcv.map (·.2), s.sizes, t.sizes⟩

/-! ### The exchange -/

/-- Bytes `[off, off+n)` of buffer `id` (`.at(buf_id)` throws; reading outside the buffer is undefined). -/
def bufSlice {B : Type} (bufs : List (List B)) (id off n : Nat) : Res (List B) :=
  match bufs[id]? with
  | none => .throws
  | some b => if off + n ≤ b.length then .ok ((b.drop off).take n) else .ub

/-- The send posted for message `m`, sparse_exchange.cpp:262-274. -/
def xchSend {B : Type} (r : Nat) (bufs : List (List B)) (m : CMsg) : Res (Option (NSend (List B))) :=
  if m.sender = r then
    match m.offSend, m.tag with
    | some (id, off), some t => (bufSlice bufs id off m.size).bind fun p => if 2 ^ 31 ≤ m.size then .throws else .ok (some ⟨m.receiver, t, p⟩)
    | _, _ => .throws
  else .ok none

/-- The receive posted for message `m`, sparse_exchange.cpp:276-288: also the place (buffer, offset, size) it goes to. -/
def xchRecv {B : Type} (r : Nat) (bufs : List (List B)) (m : CMsg) : Res (Option NRecv) :=
  if m.receiver = r then
    match m.offRecv, m.tag with
    | some (id, off), some t => (bufSlice bufs id off m.size).bind fun _ => if 2 ^ 31 ≤ m.size then .throws else .ok (some ⟨m.sender, t⟩)
    | _, _ => .throws
  else .ok none

/-- What rank `r` posts in each iteration, sparse_exchange.cpp:258-291 (contents of the send buffers are constant during the exchange). -/
def xchProg {B : Type} (r : Nat) (sb rb : List (List B)) : List CMsg → Res (List (XIter (List B)))
  | [] => .ok []
  | m :: ms => (xchSend r sb m).bind fun s => (xchRecv r rb m).bind fun q => (xchProg r sb rb ms).bind fun l => .ok (⟨s, q⟩ :: l)

/-- The checks of the wrapper, sparse_exchange.cpp:310-346, then the posts. -/
def sparseExchangePosts {B : Type} (r : Nat) (tab : CommTable) (sb rb : List (List B)) : Res (List (XIter (List B))) :=
  if tab.sendSizes.length ≠ sb.length then .throws
  else if tab.recvSizes.length ≠ rb.length then .throws
  else if (List.zipWith (fun s (b : List B) => decide (s > b.length)) tab.sendSizes sb).any id then .throws
  else if (List.zipWith (fun s (b : List B) => decide (s > b.length)) tab.recvSizes rb).any id then .throws
  else xchProg r sb rb tab.all

/-- Effect of the completed receives on the receive buffers: the payload of iteration `i` is written at its place. -/
def xchStore {B : Type} (r : Nat) (got : Nat → Option (List B)) : List CMsg → Nat → List (List B) → Res (List (List B))
  | [], _, rb => .ok rb
  | m :: ms, i, rb =>
    if m.receiver = r then
      match m.offRecv, got i with
      | some (id, off), some p =>
        match rb[id]? with
        | none => .throws
        | some b => (blockWrite b off p).bind fun b' => xchStore r got ms (i + 1) (rb.set id b')
      | _, _ => .ub
    else xchStore r got ms (i + 1) rb

end Shamrock
