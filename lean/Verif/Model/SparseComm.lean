import Verif.Model.SparseExchange
import Verif.Model.Serialize
import Verif.Model.Containers
import Verif.Model.Patch
/-! Exchange of distributed data: /repo/src/shamalgs/src/collective/distributedDataComm.cpp and
/repo/src/shamalgs/include/shamalgs/collective/distributedDataComm.hpp. A `DistributedDataShared<DeviceBuffer<u8>>` is the list of its entries
((sender id, receiver id), bytes) in multimap order. `rank_getter` is a function `rk` from ids to ranks. Device memory contents and execution
orders inside the serializer are the fields of `SerEnv`, arbitrary. -/
namespace Shamrock

/-- An entry of `SerializedDDataComm`, distributedDataComm.hpp:35. -/
abbrev SEnt := (Nat × Nat) × List Byte

/-- u64, u8 (object sizes used by the serializer). -/
def tyU64 : STy := ⟨8, 1, 8⟩
def tyU8 : STy := ⟨1, 1, 1⟩

/-- What the code does not determine in one use of a serializer: initial memory, execution orders (`allow_large_int_size` is left at
its default, false). -/
structure SerEnv where
  junk : Nat → Byte
  wr : Nat → List Nat
  fin : List Nat
  ext : List Nat
  ld : Nat → List Nat
  dest : Nat → Byte

/-- `SerializeSize::operator*(int)`, serialize.hpp:75-91, for a non negative factor. -/
def SSize.mul (a : SSize) (k : Nat) : SSize := ⟨u64 (a.head * k), u64 (a.content * k)⟩

/-- `get_total_size`, serialize.hpp:96. -/
def SSize.total (a : SSize) : Nat := u64 (a.head + a.content)

/-- DataTmp::get_ser_sz, distributedDataComm.cpp:62-65. -/
def entSize (e : SEnt) : SSize := ((byteSizeVal tyU64).mul 3).add (byteSizeBuf tyU8 e.2.length)

/-- `send_data[key].push_back(d)` on a `std::map` (C++ standard library), distributedDataComm.cpp:356-358. -/
def grpInsert : List ((Nat × Nat) × List SEnt) → Nat × Nat → SEnt → List ((Nat × Nat) × List SEnt)
  | [], k, e => [(k, [e])]
  | g :: m, k, e => if g.1 = k then (g.1, g.2 ++ [e]) :: m else if pairLt k g.1 then (k, [e]) :: g :: m else g :: grpInsert m k e

/-- Grouping by pair of ranks, distributedDataComm.cpp:352-359. -/
def groupByRank (rk : Nat → Nat) (data : List SEnt) : List ((Nat × Nat) × List SEnt) :=
  data.foldl (fun m e => grpInsert m (rk e.1.1, rk e.1.2) e) []

/-- PrepareCommUtil, distributedDataComm.cpp:100-104. -/
structure PComm where
  sender : Nat
  receiver : Nat
  sz : SSize
  src : List SEnt
deriving DecidableEq, Repr

/-- `add_to_ret`, distributedDataComm.cpp:139-156 (the resets at 158-159 are in `grpLoop`). -/
def addToRet (mx : Nat) (key : Nat × Nat) (bs : SSize) (src : List SEnt) (ret : List PComm) : Res (List PComm) :=
  if bs.total > mx then .throws
  else .ok (if src.length > 0 then ret ++ [⟨key.1, key.2, bs, src⟩] else ret)

/-- The loop over the entries of one pair of ranks, distributedDataComm.cpp:163-182. -/
def grpLoop (mx : Nat) (key : Nat × Nat) : List SEnt → SSize → List SEnt → List PComm → Res (List PComm)
  | [], bs, src, ret => addToRet mx key bs src ret
  | d :: ds, bs, src, ret =>
    if ((entSize d).add bs).total > mx then
      (addToRet mx key bs src ret).bind fun ret => grpLoop mx key ds ((byteSizeVal tyU64).add (entSize d)) [d] ret
    else grpLoop mx key ds (bs.add (entSize d)) (src ++ [d]) ret

/-- serialize_group_data_max_size up to the serialization, distributedDataComm.cpp:137-183. -/
def grpAll (mx : Nat) : List ((Nat × Nat) × List SEnt) → List PComm → Res (List PComm)
  | [], ret => .ok ret
  | g :: gs, ret => (grpLoop mx g.1 g.2 (byteSizeVal tyU64) [] ret).bind fun ret => grpAll mx gs ret

/-- The messages rank data gives, before serialization. -/
def prepComms (rk : Nat → Nat) (mx : Nat) (data : List SEnt) : Res (List PComm) := grpAll mx (groupByRank rk data) []

/-- write_sources, the loop at distributedDataComm.cpp:116-121. -/
def writeEnts (env : SerEnv) : Nat → List SEnt → SerH → Res SerH
  | _, [], h => .ok h
  | i, e :: es, h =>
    (h.writeVal tyU64 (leBytes 8 e.1.1)).bind fun h =>
    (h.writeVal tyU64 (leBytes 8 e.1.2)).bind fun h =>
    (h.writeVal tyU64 (leBytes 8 e.2.length)).bind fun h =>
    (h.writeBuf tyU8 (e.2.map fun b => [b]) e.2.length (env.wr i)).bind fun h => writeEnts env (i + 1) es h

/-- allocate_serializer, write_sources, finalize_serializer, distributedDataComm.cpp:108-127. -/
def packComm (env : SerEnv) (c : PComm) : Res (List Byte) :=
  (SerH.allocate c.sz false env.junk).bind fun h =>
  (h.writeVal tyU64 (leBytes 8 c.src.length)).bind fun h =>
  (writeEnts env 0 c.src h).bind fun h => h.finalize env.fin

/-- Serialization of all the messages of a rank, distributedDataComm.cpp:185-200. -/
def packAll (env : Nat → SerEnv) : Nat → List PComm → Res (List (List Byte))
  | _, [] => .ok []
  | i, c :: cs => (packComm (env i) c).bind fun b => (packAll env (i + 1) cs).bind fun bs => .ok (b :: bs)

/-- `messages_send`, distributedDataComm.cpp:364-384. -/
def msgInfos : List PComm → List (List Byte) → List CMsgIn
  | c :: cs, b :: bs => ⟨b.length, c.sender, c.receiver⟩ :: msgInfos cs bs
  | _, _ => []

/-- `max_alloc_size`, distributedDataComm.cpp:339-349, from the allocation limit of the device or host. -/
def commMaxAlloc (dev mx : Nat) : Nat := if u64sub dev 1 > mx then mx else u64sub dev 1

/-- `send_cache_write_buf_at`, distributedDataComm.hpp:72-76 with the checks of `copy_range_offset`, DeviceBuffer.hpp:589-638 (`cache1[buf_id]`
outside the vector is undefined). -/
def cacheWrite (bufs : List (List Byte)) (id off : Nat) (b : List Byte) : Res (List (List Byte)) :=
  match bufs[id]? with
  | none => .ub
  | some dst =>
    if off > dst.length then .throws
    else if b.length > dst.length - off then .throws
    else (blockWrite dst off b).bind fun dst' => .ok (bufs.set id dst')

/-- Filling the send cache, distributedDataComm.cpp:426-434 after the size checks 397-424. -/
def fillLoop : List CMsg → List (List Byte) → List (List Byte) → Res (List (List Byte))
  | [], _, bufs => .ok bufs
  | m :: ms, payloads, bufs =>
    match m.offSend, payloads with
    | some p, b :: bs => (cacheWrite bufs p.1 p.2 b).bind fun bufs => fillLoop ms bs bufs
    | _, _ => .throws

def fillCache (send : List CMsg) (payloads : List (List Byte)) (bufs : List (List Byte)) : Res (List (List Byte)) :=
  if send.length ≠ payloads.length then .throws else fillLoop send payloads bufs

/-- `recv_cache_read_buf_at`, distributedDataComm.hpp:90-94 with the checks of `copy_range`. -/
def cacheRead (bufs : List (List Byte)) (id off n : Nat) : Res (List Byte) :=
  match bufs[id]? with
  | none => .ub
  | some src => if off + n > src.length then .throws else .ok ((src.drop off).take n)

/-- The loop over the objects of one message, distributedDataComm.cpp:480-502; `real` is the rank the message came from. `i` is a u32 in the
code, so `cnt ≥ 2^32` would not end; it is bounded by the message size. -/
def loadEnts (env : SerEnv) (rk : Nat → Nat) (real : Nat) : Nat → Nat → SerH → List SEnt → Res (List SEnt)
  | 0, _, _, acc => .ok acc
  | n + 1, i, h, acc =>
    (h.loadVal tyU64).bind fun (bs, h) =>
    (h.loadVal tyU64).bind fun (br, h) =>
    (h.loadVal tyU64).bind fun (bl, h) =>
    if rk (leVal bs) ≠ real then .throws
    else
      (h.loadBuf true tyU8 ((List.range (leVal bl)).map fun k => [env.dest k]) (leVal bl) (env.ld i)).bind fun (out, h) =>
      loadEnts env rk real n (i + 1) h (ddsAddObj acc (leVal bs) (leVal br) out.flatten)

/-- One received message, distributedDataComm.cpp:469-471, 478-503. -/
def unpackComm (env : SerEnv) (rk : Nat → Nat) (real : Nat) (bytes : List Byte) (acc : List SEnt) : Res (List SEnt) :=
  (SerH.ofBuffer bytes false env.ext).bind fun h =>
  (h.loadVal tyU64).bind fun (bc, h) => loadEnts env rk real (leVal bc) 0 h acc

/-- All received messages, distributedDataComm.cpp:456-504. -/
def unpackAll (env : Nat → SerEnv) (rk : Nat → Nat) (bufs : List (List Byte)) : Nat → List CMsg → List SEnt → Res (List SEnt)
  | _, [], acc => .ok acc
  | i, m :: ms, acc =>
    match m.offRecv with
    | none => .throws
    | some p =>
      (cacheRead bufs p.1 p.2 m.size).bind fun b =>
      (unpackComm (env i) rk m.sender b acc).bind fun acc => unpackAll env rk bufs (i + 1) ms acc

/-! ### serialize_sparse_comm, distributedDataComm.hpp:173-216 -/

/-- First part, lines 186-197: what stays on the rank and what is sent, serialized with `ser`. -/
def splitSend {T : Type} (rk : Nat → Nat) (ser : T → List Byte) (data : List ((Nat × Nat) × T)) : List ((Nat × Nat) × T) × List SEnt :=
  let r := ddsTransferAll (fun a b => decide (rk a = rk b)) data []
  (r.2, r.1.map fun e => (e.1, ser e.2))

/-- Last part, lines 203-215: deserialize, then move back what stayed. -/
def joinRecv {T : Type} (deser : List Byte → T) (recv : List SEnt) (same : List ((Nat × Nat) × T)) : List ((Nat × Nat) × T) :=
  (ddsTransferAll (fun _ _ => true) same (recv.map fun e => (e.1, deser e.2))).2

end Shamrock
