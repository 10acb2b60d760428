import Verif.Model.Reattribute
/-! Serialization of patch data: /repo/src/shamrock/src/patch/PatchDataField.cpp:389-448 and PatchDataLayer.cpp:295-325. A value of a field of
type `T` is the list of its bytes in the serialized order; `tys` are the types of the fields of the layout, `lay` their numbers of values per object. -/
namespace Shamrock

/-- `PatchDataField::serialize_buf`, PatchDataField.cpp:390-398. -/
def PField.serializeBuf (t : STy) (sched : List Nat) (f : PField (List Byte)) (h : SerH) : Res SerH :=
  f.objCnt.bind fun n =>
  (h.writeVal tyU32 (leBytes 4 n)).bind fun h =>
  if n > 0 then f.valCnt.bind fun k => h.writeBuf t f.buf k sched else .ok h

/-- `PatchDataField::deserialize_buf`, PatchDataField.cpp:401-415 (`cnt * nvar` is a u32 product; `junk` the contents of a new buffer). The
constructors do not check the size. -/
def PField.deserializeBuf (junk : Nat → List Byte) (t : STy) (nvar : Nat) (sched : List Nat) (h : SerH) : Res (PField (List Byte) × SerH) :=
  (h.loadVal tyU32).bind fun (bc, h) =>
  if leVal bc > 0 then
    (h.loadBuf true t ((List.range (leVal bc * nvar % 2 ^ 32)).map junk) (leVal bc * nvar % 2 ^ 32) sched).bind fun (out, h) => .ok (⟨nvar, out⟩, h)
  else .ok (⟨nvar, []⟩, h)

/-- `serialize_buf_byte_size`, PatchDataField.cpp:418-422. -/
def PField.byteSize (t : STy) (f : PField (List Byte)) : Res SSize := f.valCnt.bind fun k => .ok ((byteSizeVal tyU32).add (byteSizeBuf t k))

/-- `PatchDataLayer::serialize_buf`, PatchDataLayer.cpp:295-300. -/
def PLayer.serializeBuf (sched : Nat → List Nat) : Nat → List STy → PLayer (List Byte) → SerH → Res SerH
  | k, t :: ts, f :: r, h => (f.serializeBuf t (sched k) h).bind fun h => PLayer.serializeBuf sched (k + 1) ts r h
  | _, _, _, h => .ok h

/-- `PatchDataLayer::serialize_buf_byte_size`, PatchDataLayer.cpp:302-308. -/
def PLayer.byteSize : List STy → PLayer (List Byte) → SSize → Res SSize
  | t :: ts, f :: r, s => (f.byteSize t).bind fun b => PLayer.byteSize ts r (s.add b)
  | _, _, s => .ok s

/-- `PatchDataLayer::deserialize_buf`, PatchDataLayer.cpp:310-325: one field per field of the layout. -/
def PLayer.deserializeBuf (junk : Nat → List Byte) (sched : Nat → List Nat) : Nat → List STy → List Nat → SerH → Res (PLayer (List Byte))
  | k, t :: ts, nv :: lay, h => (PField.deserializeBuf junk t nv (sched k) h).bind fun (f, h) =>
    (PLayer.deserializeBuf junk sched (k + 1) ts lay h).bind fun r => .ok (f :: r)
  | _, _, _, _ => .ok []

/-- The serialization lambda of the exchanges, e.g. ReattributeDataUtility.hpp:244-249. `env` holds the unspecified initial memory and schedules. -/
def layerSer (env : SerEnv) (tys : List STy) (l : PLayer (List Byte)) : Res (List Byte) :=
  (PLayer.byteSize tys l ⟨0, 0⟩).bind fun sz =>
  (SerH.allocate sz false env.junk).bind fun h =>
  (PLayer.serializeBuf env.wr 0 tys l h).bind fun h => h.finalize env.fin

/-- The deserialization lambda, ReattributeDataUtility.hpp:250-256. -/
def layerDeser (env : SerEnv) (junk : Nat → List Byte) (tys : List STy) (lay : List Nat) (b : List Byte) : Res (PLayer (List Byte)) :=
  (SerH.ofBuffer b false env.ext).bind fun h => PLayer.deserializeBuf junk env.ld 0 tys lay h

end Shamrock
