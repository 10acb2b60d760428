import Verif.Model.Fortran
/-! Phantom dump files: /repo/src/shammodels/sph/src/io/PhantomDump.cpp and
/repo/src/shammodels/sph/include/shammodels/sph/io/PhantomDump.hpp. Values are their object representations (bytes). The eight
typed members (fort_int, i8, i16, i32, i64, fort_real, f32, f64) are one list, in that order, with element sizes `phSizes`. -/
namespace Shamrock

/-- `sizeof` of fort_int, i8, i16, i32, i64, fort_real, f32, f64 (PhantomDump.hpp:190-209, 396-410). -/
def phSizes : List Nat := [4, 1, 2, 4, 8, 8, 4, 8]

/-- `PhantomDumpTableHeader<T>::entries`, PhantomDump.hpp:46: tag and value. -/
abbrev PhTable := List (List Byte × List Byte)

/-- `PhantomDumpBlockArray<T>`, PhantomDump.hpp:130-140. -/
structure PhArray where
  tag : List Byte
  vals : List (List Byte)
  deriving DecidableEq, Repr

/-- `PhantomDumpBlock`, PhantomDump.hpp:185-209; `tot` is the i64 `tot_count` as its 64 bit pattern. -/
structure PhBlock where
  tot : Nat
  arrays : List (List PhArray)
  deriving DecidableEq, Repr

/-- `PhantomDump`, PhantomDump.hpp:347-412. -/
structure PhDump where
  i1 : List Byte
  r1 : List Byte
  i2 : List Byte
  iversion : List Byte
  i3 : List Byte
  fileid : List Byte
  tables : List PhTable
  blocks : List PhBlock
  deriving DecidableEq, Repr

/-- `override_magic_number`, PhantomDump.hpp:368-373 (`r1 = 60878.0`, whose f64 bits are 0x40EDB9C000000000). -/
def PhDump.overrideMagic (d : PhDump) : PhDump :=
  { d with i1 := leBytes 4 60769, i2 := leBytes 4 60878, i3 := leBytes 4 690706, r1 := leBytes 8 0x40EDB9C000000000 }

/-- `check_magic_numbers`, PhantomDump.hpp:380-393 (60878 has one f64 representation, so `r1 != i2` is a bit comparison). -/
def PhDump.magicOk (d : PhDump) : Bool :=
  leVal d.i1 == 60769 && leVal d.i2 == 60878 && leVal d.i3 == 690706 && leVal d.r1 == 0x40EDB9C000000000

/-- An i32 used as a loop bound `u32 j < n`. -/
def asU32 (b : List Byte) : Nat := leVal b

/-- `PhantomDumpTableHeader<T>::write`, PhantomDump.cpp:86-107. -/
def phTableWrite (sz : Nat) (entries : PhTable) (st : Strm) : Res Strm :=
  let nvars := leBytes 4 entries.length
  let st := fWrite [nvars] st
  if leVal nvars = 0 then .ok st
  else do
    let st ← fWriteStringArray (entries.map (·.1)) 16 (asU32 nvars) st
    fWriteValArray sz (entries.map (·.2)) (asU32 nvars) st

/-- `PhantomDumpTableHeader<T>::from_file`, PhantomDump.cpp:58-84 (the uninitialised `nvars` is overwritten by the record or the
read throws, so its initial bytes do not matter; zeros here). -/
def phTableRead (sz : Nat) (st : Strm) : Res (PhTable × Strm) := do
  let (r, st) ← fRead [leBytes 4 0] st
  let nvars := r.headD []
  if leVal nvars = 0 then .ok ([], st)
  else do
    let (tags, st) ← fReadStringArray 16 (asU32 nvars) st
    let (vals, st) ← fReadValArray sz (asU32 nvars) st
    pure (tags.zip vals, st)

/-- `PhantomDumpBlockArray<T>::write`, PhantomDump.cpp:45-51 (`tot_count` converted to u32). -/
def phArrayWrite (sz tot : Nat) (a : PhArray) (st : Strm) : Res Strm := do
  let st ← fWriteFixedString a.tag 16 st
  fWriteValArray sz a.vals (tot % 2 ^ 32) st

/-- `PhantomDumpBlockArray<T>::from_file`, PhantomDump.cpp:35-43. -/
def phArrayRead (sz tot : Nat) (st : Strm) : Res (PhArray × Strm) := do
  let (tag, st) ← fReadFixedString [] 16 st
  let (vals, st) ← fReadValArray sz (tot % 2 ^ 32) st
  pure (⟨tag, vals⟩, st)

/-- A sequence of writes. -/
def seqWrite {α : Type} (f : α → Strm → Res Strm) : List α → Strm → Res Strm
  | [], st => .ok st
  | a :: r, st => do
    let st ← f a st
    seqWrite f r st

/-- A loop reading `n` items. -/
def seqRead {α : Type} (f : Strm → Res (α × Strm)) : Nat → Strm → Res (List α × Strm)
  | 0, st => .ok ([], st)
  | n + 1, st => do
    let (a, st) ← f st
    let (r, st) ← seqRead f n st
    pure (a :: r, st)

/-- Reading one item per key. -/
def mapRead {κ α : Type} (f : κ → Strm → Res (α × Strm)) : List κ → Strm → Res (List α × Strm)
  | [], st => .ok ([], st)
  | k :: ks, st => do
    let (a, st) ← f k st
    let (r, st) ← mapRead f ks st
    pure (a :: r, st)

/-- `PhantomDumpBlock::write`, PhantomDump.cpp:189-217: all arrays of each type (`numarray` holds the sizes, PhantomDump.cpp:293-301). -/
def phBlockWrite (b : PhBlock) (st : Strm) : Res Strm :=
  seqWrite (fun (p : Nat × List PhArray) st => seqWrite (phArrayWrite p.1 b.tot) p.2 st) (phSizes.zip b.arrays) st

/-- `PhantomDumpBlock::from_file`, PhantomDump.cpp:153-187. -/
def phBlockRead (tot : Nat) (counts : List Nat) (st : Strm) : Res (PhBlock × Strm) := do
  let (arrays, st) ← mapRead (fun (p : Nat × Nat) st => seqRead (phArrayRead p.1 tot) p.2 st) (phSizes.zip counts) st
  pure (⟨tot, arrays⟩, st)

/-- `std::array<i32, 8> counts`, PhantomDump.cpp:293-301, as its 32 bytes. -/
def phCounts (b : PhBlock) : List Byte := b.arrays.flatMap (fun a => leBytes 4 a.length)

/-- The i32 values of an array of 4 byte integers. -/
def u32sOf : List Byte → List Nat
  | b0 :: b1 :: b2 :: b3 :: r => leVal [b0, b1, b2, b3] :: u32sOf r
  | _ => []

/-- `PhantomDump::gen_file`, PhantomDump.cpp:268-313. -/
def PhDump.genFile (d : PhDump) : Res Strm := do
  let st := fWrite [d.i1, d.r1, d.i2, d.iversion, d.i3] ⟨[], 0, 0, false⟩
  let st ← fWriteFixedString d.fileid 100 st
  let st ← seqWrite (fun (p : Nat × PhTable) st => phTableWrite p.1 p.2 st) (phSizes.zip d.tables) st
  let st := fWrite [leBytes 4 d.blocks.length] st
  let st ← seqWrite (fun (b : PhBlock) st => .ok (fWrite [leBytes 8 b.tot, phCounts b] st)) d.blocks st
  seqWrite phBlockWrite d.blocks st

/-- `PhantomDump::from_file`, PhantomDump.cpp:315-368 (the final `finished_read` only logs a warning). -/
def phFromFile (st : Strm) : Res (PhDump × Strm) := do
  let (m, st) ← fRead [leBytes 4 0, leBytes 8 0, leBytes 4 0, leBytes 4 0, leBytes 4 0] st
  let d : PhDump := ⟨m.getD 0 [], m.getD 1 [], m.getD 2 [], m.getD 3 [], m.getD 4 [], [], [], []⟩
  if d.magicOk = false then .throws
  else do
    let (fileid, st) ← fReadFixedString [] 100 st
    let (tables, st) ← mapRead phTableRead phSizes st
    let (nb, st) ← fRead [leBytes 4 0] st
    let (heads, st) ← seqRead (fun st => fRead [leBytes 8 0, List.replicate 32 0#8] st) (asU32 (nb.headD [])) st
    let (blocks, st) ← mapRead (fun (h : List (List Byte)) st => phBlockRead (leVal (h.getD 0 [])) (u32sOf (h.getD 1 [])) st) heads st
    pure ({ d with fileid := fileid, tables := tables, blocks := blocks }, st)

/-- `sham::format("{:16s}", s)`, used by `add` (PhantomDump.hpp:62-65) and by the accessors: pad with spaces to 16, never cut. -/
def phTag (s : List Byte) : List Byte := s ++ List.replicate (16 - s.length) 32#8

/-- `PhantomDumpTableHeader<T>::add`, PhantomDump.hpp:62-65. -/
def phTableAdd (t : PhTable) (s v : List Byte) : PhTable := t ++ [(phTag s, v)]

/-- `PhantomDumpTableHeader<T>::fetch`, PhantomDump.hpp:80-90: the last entry with this key. -/
def phTableFetch (t : PhTable) (key : List Byte) : Option (List Byte) :=
  t.foldl (fun ret e => if e.1 = key then some e.2 else ret) none

end Shamrock
