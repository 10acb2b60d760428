import Verif.Model.ByteStream
import Verif.Model.Kernel
/-! `shamalgs::SerializeHelper`: /repo/src/shamalgs/include/shamalgs/serialize.hpp, /repo/src/shamalgs/src/serialize.cpp and
/repo/src/shamalgs/include/shamalgs/details/SerializeHelperMember.hpp. u64 arithmetic is modulo 2^64. Device kernels are
launches with an arbitrary schedule of single byte (stores) or single element (loads) accesses. -/
namespace Shamrock

/-- u64 value. -/
def u64 (x : Nat) : Nat := x % 2 ^ 64

/-- `SerializeHelperMember<T>`, SerializeHelperMember.hpp:27-163: `T` is stored as `n` components of `csz` bytes accessed through
pointers with alignment `al` (`n = 1` for a plain type; `sycl::vec<T,n>` is stored component by component in order). -/
structure STy where
  csz : Nat
  n : Nat
  al : Nat
  deriving DecidableEq, Repr

/-- `szrepr`, SerializeHelperMember.hpp:30,45,62,80,99,122. -/
def STy.sz (t : STy) : Nat := t.csz * t.n

/-- The types of C++: sizes are multiples of the alignment, which is 1, 2, 4 or 8. -/
def STy.Ok (t : STy) : Prop := 0 < t.al ∧ t.al ∣ t.csz ∧ t.al ∣ 8 ∧ 0 < t.sz ∧ t.sz < 2 ^ 32

/-- `align_repr<8>`, serialize.hpp:101-108. -/
def alignRepr (off : Nat) : Nat :=
  let m := off % 8
  if m = 0 then off else u64 (off + (8 - m))

/-- `SerializeSize`, serialize.hpp:37-98. -/
structure SSize where
  head : Nat
  content : Nat
  deriving DecidableEq, Repr

/-- `operator+`, serialize.hpp:41-57. -/
def SSize.add (a b : SSize) : SSize := ⟨u64 (a.head + b.head), u64 (a.content + b.content)⟩

/-- `serialize_byte_size<T>()`, serialize.hpp:110-114. -/
def byteSizeVal (t : STy) : SSize := ⟨alignRepr t.sz, 0⟩

/-- `serialize_byte_size<T>(len)`, serialize.hpp:116-120. -/
def byteSizeBuf (t : STy) (len : Nat) : SSize := ⟨0, alignRepr (u64 (len * t.sz))⟩

/-- u32. -/
def tyU32 : STy := ⟨4, 1, 4⟩
/-- char. -/
def tyChar : STy := ⟨1, 1, 1⟩

/-- `serialize_byte_size(std::string)`, serialize.hpp:122-126 (declares 4 bytes per character). -/
def byteSizeStr (s : List Byte) : SSize := (byteSizeVal tyU32).add (byteSizeBuf tyU32 s.length)

/-- State of a `SerializeHelper`, serialize.hpp:132-137. -/
structure SerH where
  headerSize : Nat
  storage : List Byte
  header : List Byte
  headDev : Nat
  headHost : Nat
  deriving DecidableEq, Repr

/-- A single byte store of a work item. -/
def byteStep (a : Nat) (b : Byte) : KStep Unit Byte := fun l m => if a < m.length then some (l, m.set a b) else none

/-- Consecutive byte stores. -/
def byteProg : Nat → List Byte → List (KStep Unit Byte)
  | _, [] => []
  | a, b :: r => byteStep a b :: byteProg (a + 1) r

/-- An invalid access. -/
def ubStep {α : Type} : KStep Unit α := fun _ _ => none

/-- `Helper::store(&storage[off], v)`, SerializeHelperMember.hpp:31-34,47-51,…: undefined behaviour when misaligned. -/
def storeProg (t : STy) (off : Nat) (v : List Byte) : List (KStep Unit Byte) :=
  if off % t.al = 0 then byteProg off v else [ubStep]

/-- `Helper::load(&mem[off])`, SerializeHelperMember.hpp:35-38,52-55,…. -/
def loadAt (t : STy) (mem : List Byte) (off : Nat) : Option (List Byte) :=
  if off % t.al = 0 ∧ off + t.sz ≤ mem.length then some ((mem.drop off).take t.sz) else none

/-- `pre_head_length`, serialize.cpp:142-145. -/
def preHead : Nat := 8

/-- `write_prehead`, serialize.cpp:62-76: `memcpy` of 8 bytes to the start. -/
def writePrehead (v : Nat) (storage : List Byte) : Res (List Byte) :=
  if 8 ≤ storage.length then .ok (leBytes 8 v ++ storage.drop 8) else .ub

/-- `extract_preahead`, serialize.cpp:33-60. -/
def extractPrehead (storage : List Byte) : Res Nat :=
  if storage.length = 0 then .throws
  else if 8 ≤ storage.length then .ok (leVal (storage.take 8)) else .ub

/-- Work item `i` assigning element `i` of a buffer with a value it read (`none`: the read was invalid). -/
def assignStep {α : Type} (i : Nat) (val : Option α) : KStep Unit α := fun l m =>
  match val with
  | some b => if i < m.length then some (l, m.set i b) else none
  | none => none

/-- Work item `i` of `write_header`: `accbufstg[id + pre_head_length] = buf_header[id]`, serialize.cpp:131-133. -/
def headerItem (header : List Byte) (i : Nat) : List (KStep Unit Byte) :=
  match header[i]? with
  | some b => [byteStep (i + preHead) b]
  | none => [ubStep]

/-- Work item `i` of `write_buf`, serialize.hpp:306-309, 362-365. -/
def writeItem (t : STy) (elems : List (List Byte)) (head : Nat) (i : Nat) : List (KStep Unit Byte) :=
  match elems[i]? with
  | some v => storeProg t (u64 (head + i * t.sz)) v
  | none => [ubStep]

/-- `extract_header`, serialize.cpp:87-113. -/
def extractHeader (storage : List Byte) (hs : Nat) (sched : List Nat) : Res (List Byte) :=
  Res.ofOpt (kLaunch hs (fun i => [assignStep i storage[i + preHead]?]) () sched (List.replicate hs 0#8))

/-- `write_header`, serialize.cpp:115-140. -/
def writeHeader (storage header : List Byte) (hs : Nat) (sched : List Nat) : Res (List Byte) :=
  Res.ofOpt (kLaunch hs (headerItem header) () sched storage)

/-- A fresh `SerializeHelper`, serialize.cpp:178-179. -/
def SerH.fresh : SerH := ⟨0, [], [], 0, 0⟩

/-- `allocate`, serialize.cpp:147-166, on a fresh helper. `junk` is the unspecified contents of new device memory;
`storage_header.resize` gives zeros. -/
def SerH.allocate (sz : SSize) (large : Bool) (junk : Nat → Byte) : Res SerH := do
  let bytelen := u64 (sz.head + sz.content + preHead)
  if large = false ∧ 2 ^ 32 ≤ bytelen then .throws
  else do
    let storage ← writePrehead sz.head ((List.range bytelen).map junk)
    pure { headerSize := sz.head, storage := storage, header := List.replicate sz.head 0#8,
           headDev := u64 (preHead + sz.head), headHost := 0 }

/-- `finalize`, serialize.cpp:168-176. -/
def SerH.finalize (h : SerH) (sched : List Nat) : Res (List Byte) := writeHeader h.storage h.header h.headerSize sched

/-- Constructor from a buffer, serialize.cpp:181-204. -/
def SerH.ofBuffer (input : List Byte) (large : Bool) (sched : List Nat) : Res SerH := do
  if large = false ∧ 2 ^ 32 ≤ input.length then .throws
  else do
    let hs ← extractPrehead input
    let header ← extractHeader input hs sched
    pure { headerSize := hs, storage := input, header := header, headDev := u64 (preHead + hs), headHost := 0 }

/-- `write(T val)`, serialize.hpp:223-237, with `check_head_move_host`, serialize.hpp:165-187. -/
def SerH.writeVal (h : SerH) (t : STy) (v : List Byte) : Res SerH :=
  let off := alignRepr t.sz
  if u64 (h.headHost + off) > h.header.length then .throws
  else do
    let r ← Res.ofOpt (itemRun (storeProg t h.headHost v) () h.header)
    pure { h with header := r.2, headHost := u64 (h.headHost + off) }

/-- `load(T &val)`, serialize.hpp:239-256. -/
def SerH.loadVal (h : SerH) (t : STy) : Res (List Byte × SerH) :=
  let off := alignRepr t.sz
  if u64 (h.headHost + off) > h.header.length then .throws
  else do
    let v ← Res.ofOpt (loadAt t h.header h.headHost)
    pure (v, { h with headHost := u64 (h.headHost + off) })

/-- `write_buf(buf, len)`, serialize.hpp:288-315 (sycl buffer) and 346-372 (device buffer), with `check_head_move_device`,
serialize.hpp:141-163. -/
def SerH.writeBuf (h : SerH) (t : STy) (elems : List (List Byte)) (len : Nat) (sched : List Nat) : Res SerH :=
  let off := alignRepr (u64 (len * t.sz))
  if u64 (h.headDev + off) > h.storage.length then .throws
  else do
    let st ← Res.ofOpt (kLaunch len (writeItem t elems h.headDev) () sched h.storage)
    pure { h with storage := st, headDev := u64 (h.headDev + off) }

/-- `load_buf(buf, len)`, serialize.hpp:317-344 (sycl buffer, `dev = false`) and 374-408 (device buffer, `dev = true`), into a
buffer holding `dest`. -/
def SerH.loadBuf (h : SerH) (dev : Bool) (t : STy) (dest : List (List Byte)) (len : Nat) (sched : List Nat) :
    Res (List (List Byte) × SerH) :=
  let off := alignRepr (u64 (len * t.sz))
  if u64 (h.headDev + off) > h.storage.length then .throws
  else if dev = true ∧ dest.length < len then .throws
  else do
    let out ← Res.ofOpt (kLaunch len (fun i => [assignStep i (loadAt t h.storage (u64 (h.headDev + i * t.sz)))]) () sched dest)
    pure (out, { h with headDev := u64 (h.headDev + off) })

/-- `write(std::string)`, serialize.hpp:258-270 (string shorter than 2^32, else the u32 loop does not end). -/
def SerH.writeStr (h : SerH) (s : List Byte) (sched : List Nat) : Res SerH := do
  let h ← h.writeVal tyU32 (leBytes 4 s.length)
  h.writeBuf tyChar (s.map (fun b => [b])) s.length sched

/-- `load(std::string &)`, serialize.hpp:272-286. -/
def SerH.loadStr (h : SerH) (sched : List Nat) : Res (List Byte × SerH) := do
  let (lb, h) ← h.loadVal tyU32
  let len := leVal lb
  let (buf, h) ← h.loadBuf false tyChar (List.replicate len [0#8]) len sched
  pure (buf.flatten, h)

end Shamrock
