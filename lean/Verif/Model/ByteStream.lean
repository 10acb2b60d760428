import Verif.Model.Res
/-! Byte streams: `std::basic_stringstream<byte>` as used by Shamrock and the functions of
/repo/src/shambase/include/shambase/bytestream.hpp. An object of a trivially copyable type `T` is represented by its
`sizeof(T)` bytes (object representation), which is all these functions look at. -/
namespace Shamrock

/-- A byte of memory. -/
abbrev Byte := BitVec 8

/-- The `n` bytes of the unsigned integer `v` on a little endian machine (Shamrock runs on little endian targets). -/
def leBytes : Nat → Nat → List Byte
  | 0, _ => []
  | n + 1, v => BitVec.ofNat 8 v :: leBytes n (v / 256)

/-- The unsigned integer stored little endian in some bytes. -/
def leVal : List Byte → Nat
  | [] => 0
  | b :: r => b.toNat + 256 * leVal r

/-- `std::basic_stringstream<byte>`: contents, get and put positions, `fail()` state (C++ standard library, not in /repo). -/
structure Strm where
  buf : List Byte
  gpos : Nat
  ppos : Nat
  bad : Bool
  deriving DecidableEq, Repr

/-- `std::basic_ostream::write`: overwrites from the put position, extends at the end; does nothing when the stream has failed. -/
def Strm.write (st : Strm) (bs : List Byte) : Strm :=
  if st.bad then st
  else { st with buf := st.buf.take st.ppos ++ bs ++ st.buf.drop (st.ppos + bs.length), ppos := st.ppos + bs.length }

/-- `std::basic_istream::read`: extracts at most `n` bytes; a short read sets the fail state; nothing is extracted once failed. -/
def Strm.read (st : Strm) (n : Nat) : List Byte × Strm :=
  if st.bad then ([], st)
  else
    let got := (st.buf.drop st.gpos).take n
    (got, { st with gpos := st.gpos + got.length, bad := decide (got.length < n) })

/-- `stream_write`, bytestream.hpp:26-29. -/
def streamWrite (st : Strm) (obj : List Byte) : Strm := st.write obj

/-- `stream_read`, bytestream.hpp:31-34, into an object holding `old`: after a short read the tail of `old` stays. -/
def streamRead (st : Strm) (old : List Byte) : List Byte × Strm :=
  let (got, st') := st.read old.length
  (got ++ old.drop got.length, st')

/-- `stream_read` into an uninitialised local variable of `n` bytes that is then used: undefined behaviour after a short read. -/
def streamReadLocal (st : Strm) (n : Nat) : Res (List Byte × Strm) :=
  let (got, st') := st.read n
  if got.length < n then .ub else .ok (got, st')

/-- `std::string::resize` / `std::vector::resize` of value-initialised (zero) elements; `max_size` exceeded throws
`length_error`. Running out of memory below that limit is not modelled. -/
def resizeBytes (old : List Byte) (n : Nat) : Res (List Byte) :=
  if n < 2 ^ 63 then .ok (old.take n ++ List.replicate (n - old.length) 0#8) else .throws

/-- `stream_write_string`, bytestream.hpp:36-40. -/
def streamWriteString (st : Strm) (s : List Byte) : Strm :=
  (streamWrite st (leBytes 8 s.length)).write s

/-- `stream_read_string`, bytestream.hpp:42-47, into the string `old`. -/
def streamReadString (st : Strm) (old : List Byte) : Res (List Byte × Strm) := do
  let (l, st) ← streamReadLocal st 8
  let s ← resizeBytes old (leVal l)
  pure (streamRead st s)

/-- `VALIDATION_FLAGS::VECTOR`, bytestream.hpp:77-79. -/
def vectorFlag : Nat := 0x124

/-- `stream_write_vector`, bytestream.hpp:103-117; `ser` is `T::serialize`. -/
def streamWriteVector {T : Type} (ser : Strm → T → Strm) (st : Strm) (vec : List T) : Strm :=
  vec.foldl ser (streamWrite (streamWrite st (leBytes 4 vectorFlag)) (leBytes 8 vec.length))

/-- The `push_back` loop of `stream_read_vector`, bytestream.hpp:140-142. -/
def pushBackLoop {T : Type} (deser : Strm → Res (T × Strm)) : Nat → Strm → List T → Res (List T × Strm)
  | 0, st, acc => .ok (acc, st)
  | n + 1, st, acc => do
    let (v, st) ← deser st
    pushBackLoop deser n st (acc ++ [v])

/-- `stream_read_vector`, bytestream.hpp:127-143, into the vector `old` (the elements are appended to it). -/
def streamReadVector {T : Type} (deser : Strm → Res (T × Strm)) (st : Strm) (old : List T) : Res (List T × Strm) := do
  let (f, st) ← streamReadLocal st 4
  if leVal f ≠ vectorFlag then .throws
  else do
    let (l, st) ← streamReadLocal st 8
    pushBackLoop deser (leVal l) st old

/-- An object of a trivially copyable type of size `n`. -/
abbrev Obj (n : Nat) := { l : List Byte // l.length = n }

/-- Memory of a contiguous array seen as `count` objects of size `n`. -/
def objsOf (n : Nat) : Nat → List Byte → List (Obj n)
  | 0, _ => []
  | k + 1, m => ⟨(m.take n) ++ List.replicate (n - m.length) 0#8, by
      simp only [List.length_append, List.length_take, List.length_replicate]; omega⟩ :: objsOf n k (m.drop n)

/-- Bytes of a contiguous array. -/
def bytesOf {n : Nat} (v : List (Obj n)) : List Byte := v.flatMap (·.1)

/-- `stream_write_vector_trivial`, bytestream.hpp:145-156. -/
def streamWriteVectorTrivial {n : Nat} (st : Strm) (vec : List (Obj n)) : Strm :=
  (streamWrite (streamWrite st (leBytes 4 vectorFlag)) (leBytes 8 vec.length)).write (bytesOf vec)

/-- `stream_read_vector_trivial`, bytestream.hpp:166-181, into the vector `old`. -/
def streamReadVectorTrivial {n : Nat} (st : Strm) (old : List (Obj n)) : Res (List (Obj n) × Strm) := do
  let (f, st) ← streamReadLocal st 4
  if leVal f ≠ vectorFlag then .throws
  else do
    let (l, st) ← streamReadLocal st 8
    let mem ← resizeBytes (bytesOf old) (leVal l * n)
    let (mem, st) := streamRead st mem
    pure (objsOf n (leVal l) mem, st)

/-- Types that can go through a byte stream: trivially copyable objects, strings, vectors of trivially copyable objects,
vectors of serialisable types, and classes whose `serialize` / `deserialize` write / read their members one after the other
(as /repo/src/shamtest/details/TestResult.cpp:59-87 does). -/
inductive Sch where
  | raw (n : Nat)
  | str
  | tvec (n : Nat)
  | vec (s : Sch)
  | pair (a b : Sch)
  deriving DecidableEq, Repr

/-- Values of a serialisable type. -/
def Sch.V : Sch → Type
  | .raw n => Obj n
  | .str => List Byte
  | .tvec n => List (Obj n)
  | .vec s => List s.V
  | .pair a b => a.V × b.V

/-- Writing a value with the function of bytestream.hpp that goes with its type. -/
def Sch.write : (s : Sch) → Strm → s.V → Strm
  | .raw _, st, v => streamWrite st v.1
  | .str, st, v => streamWriteString st v
  | .tvec _, st, v => streamWriteVectorTrivial st v
  | .vec s, st, v => streamWriteVector s.write st v
  | .pair a b, st, v => b.write (a.write st v.1) v.2

/-- Reading a value into a fresh object with the function of bytestream.hpp that goes with its type. -/
def Sch.read : (s : Sch) → Strm → Res (s.V × Strm)
  | .raw n, st =>
    let (got, st') := st.read n
    if h : got.length = n then .ok (⟨got, h⟩, st') else .ub
  | .str, st => streamReadString st []
  | .tvec _, st => streamReadVectorTrivial st []
  | .vec s, st => streamReadVector s.read st []
  | .pair a b, st => do
    let (x, st) ← a.read st
    let (y, st) ← b.read st
    pure ((x, y), st)

/-- Sizes are held in u64 (C++ `size()`), and arrays of objects occupy less than 2^63 bytes (`max_size`). -/
def Sch.Fits : (s : Sch) → s.V → Prop
  | .raw _, _ => True
  | .str, v => List.length (α := Byte) v < 2 ^ 63
  | .tvec n, v => List.length (α := Obj n) v < 2 ^ 63 ∧ List.length (α := Obj n) v * n < 2 ^ 63
  | .vec s, v => List.length (α := s.V) v < 2 ^ 63 ∧ ∀ x : s.V, Membership.mem (γ := List s.V) v x → s.Fits x
  | .pair a b, v => a.Fits v.1 ∧ b.Fits v.2

end Shamrock
