import Verif.Model.ByteStream
/-! Fortran unformatted record files: `FortranIOFile`, /repo/src/shambase/include/shambase/fortran_io.hpp. The state is the
`std::basic_stringstream<byte> data` member (fortran_io.hpp:76). -/
namespace Shamrock

/-- Conversion of an i32 bit pattern to u64 (sign extension), the usual arithmetic conversion of `check != linebytecount`. -/
def sext64 (v : Nat) : Nat := if v < 2 ^ 31 then v else v + (2 ^ 64 - 2 ^ 32)

/-- `read_fortran_4byte`, fortran_io.hpp:69-73: the value of an i32 (as its 32 bit pattern) read in an uninitialised local. -/
def fReadMarker (st : Strm) : Res (Nat × Strm) := do
  let (b, st) ← streamReadLocal st 4
  pure (leVal b, st)

/-- `check_fortran_4byte`, fortran_io.hpp:46-56 (`new_check` starts at 0 and keeps its bytes after a short read). -/
def fCheckMarker (st : Strm) (m : Nat) : Res Strm :=
  let (b, st) := streamRead st (leBytes 4 0)
  if leVal b ≠ m then .throws else .ok st

/-- Successive `stream_read`s into objects holding `olds`. -/
def fReadObjs : List (List Byte) → Strm → List (List Byte) × Strm
  | [], st => ([], st)
  | o :: r, st =>
    let (b, st) := streamRead st o
    let (bs, st) := fReadObjs r st
    (b :: bs, st)

/-- Successive `stream_write`s. -/
def fWriteObjs (objs : List (List Byte)) (st : Strm) : Strm := objs.foldl streamWrite st

/-- `((sizeof(args)) + ...)`, fortran_io.hpp:177,196. -/
def sizesSum (objs : List (List Byte)) : Nat := (objs.map List.length).sum

/-- `FortranIOFile::write(args...)`, fortran_io.hpp:175-181 (`i32 linebytecount`: the sum modulo 2^32). -/
def fWrite (args : List (List Byte)) (st : Strm) : Strm :=
  let m := leBytes 4 (sizesSum args)
  streamWrite (fWriteObjs args (streamWrite st m)) m

/-- `FortranIOFile::read(args...)`, fortran_io.hpp:194-203, into arguments holding `args`. -/
def fRead (args : List (List Byte)) (st : Strm) : Res (List (List Byte) × Strm) := do
  let (check, st) ← fReadMarker st
  if sext64 check ≠ sizesSum args then .throws
  else do
    let (vals, st) := fReadObjs args st
    let st ← fCheckMarker st check
    pure (vals, st)

/-- `read_fixed_string`, fortran_io.hpp:216-224, into the string `s`. -/
def fReadFixedString (s : List Byte) (len : Nat) (st : Strm) : Res (List Byte × Strm) := do
  let s ← resizeBytes s len
  let (check, st) ← fReadMarker st
  if check ≠ len then .throws
  else do
    let (s, st) := streamRead st s
    let st ← fCheckMarker st check
    pure (s, st)

/-- Reading `len` bytes from `s.data()`: the string and its terminating zero are readable, more is out of bounds. -/
def stringData (s : List Byte) (len : Nat) : Res (List Byte) :=
  if len ≤ s.length + 1 then .ok ((s ++ [0#8]).take len) else .ub

/-- `write_fixed_string`, fortran_io.hpp:237-241. -/
def fWriteFixedString (s : List Byte) (len : Nat) (st : Strm) : Res Strm := do
  let d ← stringData s len
  pure (streamWrite ((streamWrite st (leBytes 4 len)).write d) (leBytes 4 len))

/-- `read_string_array`, fortran_io.hpp:255-271, into an empty vector (`strlen * str_count` is a u32 product). -/
def fReadStringArray (strlen cnt : Nat) (st : Strm) : Res (List (List Byte) × Strm) := do
  let totlen := (strlen * cnt) % 2 ^ 32
  let (check, st) ← fReadMarker st
  if sext64 check ≠ totlen then .throws
  else do
    let (vals, st) := fReadObjs (List.replicate cnt (List.replicate strlen 0#8)) st
    let st ← fCheckMarker st check
    pure (vals, st)

/-- The loop of `write_string_array`, fortran_io.hpp:291-294: `svec[i].data()` for `i < cnt`. -/
def fWriteStrings : List (List Byte) → Nat → Nat → Strm → Res Strm
  | _, _, 0, st => .ok st
  | [], _, _ + 1, _ => .ub
  | s :: r, strlen, k + 1, st => do
    let d ← stringData s strlen
    fWriteStrings r strlen k (st.write d)

/-- `write_string_array`, fortran_io.hpp:285-297. -/
def fWriteStringArray (svec : List (List Byte)) (strlen cnt : Nat) (st : Strm) : Res Strm := do
  let m := leBytes 4 (strlen * cnt)
  let st ← fWriteStrings svec strlen cnt (streamWrite st m)
  pure (streamWrite st m)

/-- `read_val_array`, fortran_io.hpp:311-329, into an empty vector of elements of size `sz` (`totlen` is a u64). -/
def fReadValArray (sz cnt : Nat) (st : Strm) : Res (List (List Byte) × Strm) := do
  let totlen := (sz * cnt) % 2 ^ 64
  let (check, st) ← fReadMarker st
  if sext64 check ≠ totlen then .throws
  else do
    let (vals, st) := fReadObjs (List.replicate cnt (List.replicate sz 0#8)) st
    let st ← fCheckMarker st check
    pure (vals, st)

/-- `write_val_array`, fortran_io.hpp:345-359; `vec` is the list of elements, each of size `sz`. -/
def fWriteValArray (sz : Nat) (vec : List (List Byte)) (cnt : Nat) (st : Strm) : Res Strm :=
  if cnt > vec.length then .throws
  else
    let m := leBytes 4 (sz * cnt)
    .ok (streamWrite (fWriteObjs (vec.take cnt) (streamWrite st m)) m)

/-- `finished_read`, fortran_io.hpp:369; `tellg()` is -1 on a failed stream. -/
def fFinishedRead (st : Strm) (length : Nat) : Bool :=
  if st.bad then decide (length = 2 ^ 64 - 1) else decide (length = st.gpos)

/-- `FortranIOFile(data_in, length)`, fortran_io.hpp:144-149, as called by `load_fortran_file`, fortran_io.hpp:404-416, on a
non empty file with these bytes: contents, get position 0, and the length. -/
def fOpen (bytes : List Byte) : Strm × Nat := (⟨bytes, 0, bytes.length, false⟩, bytes.length)

end Shamrock
