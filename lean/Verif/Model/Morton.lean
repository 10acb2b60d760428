import Verif.Model.Integer
import Verif.Model.Patch
import Verif.Model.Search
/-! Morton codes: /repo/src/shammath/include/shammath/sfc/bmi.hpp, morton.hpp and the cell ranges of
/repo/src/shamtree/src/kernels/compute_ranges.cpp. -/
namespace Shamrock

/-! ### bmi.hpp -/

/-- One line `x = (x | x << s) & mask`. -/
def spreadStep {w : Nat} (x : BitVec w) (s : Nat) (mask : BitVec w) : BitVec w := (x ||| (x <<< s)) &&& mask

/-- One line `x = (x | x >> s) & mask`. -/
def packStep {w : Nat} (x : BitVec w) (s : Nat) (mask : BitVec w) : BitVec w := (x ||| (x >>> s)) &&& mask

/-- `expand_bits<u64,2>`, bmi.hpp:31-39. -/
def expandBits64_2 (x : BitVec 64) : BitVec 64 :=
  let x := x &&& 0x1fffff#64
  let x := spreadStep x 32 0x1f00000000ffff#64
  let x := spreadStep x 16 0x1f0000ff0000ff#64
  let x := spreadStep x 8 0x100f00f00f00f00f#64
  let x := spreadStep x 4 0x10c30c30c30c30c3#64
  spreadStep x 2 0x1249249249249249#64

/-- `expand_bits<u32,2>`, bmi.hpp:43-50. -/
def expandBits32_2 (x : BitVec 32) : BitVec 32 :=
  let x := x &&& 0x3ff#32
  let x := spreadStep x 16 0x30000ff#32
  let x := spreadStep x 8 0x300f00f#32
  let x := spreadStep x 4 0x30c30c3#32
  spreadStep x 2 0x9249249#32

/-- `expand_bits<u32,1>`, bmi.hpp:54-60. -/
def expandBits32_1 (x : BitVec 32) : BitVec 32 :=
  let x := spreadStep x 8 0x00FF00FF#32
  let x := spreadStep x 4 0x0F0F0F0F#32
  let x := spreadStep x 2 0x33333333#32
  spreadStep x 1 0x55555555#32

/-- `expand_bits<u64,1>`, bmi.hpp:64-71. -/
def expandBits64_1 (x : BitVec 64) : BitVec 64 :=
  let x := spreadStep x 16 0x0000FFFF0000FFFF#64
  let x := spreadStep x 8 0x00FF00FF00FF00FF#64
  let x := spreadStep x 4 0x0F0F0F0F0F0F0F0F#64
  let x := spreadStep x 2 0x3333333333333333#64
  spreadStep x 1 0x5555555555555555#64

/-- `expand_bits<_,0>`, bmi.hpp:74-81. -/
def expandBits_0 {w : Nat} (x : BitVec w) : BitVec w := x

/-- `contract_bits<u64,2>`, bmi.hpp:87-95. -/
def contractBits64_2 (x : BitVec 64) : BitVec 64 :=
  let x := packStep x 2 0x30c30c30c30c30c3#64
  let x := packStep x 4 0xf00f00f00f00f00f#64
  let x := packStep x 8 0x00ff0000ff0000ff#64
  let x := packStep x 16 0xffff00000000ffff#64
  packStep x 32 0x00000000ffffffff#64

/-- `contract_bits<u64,1>`, bmi.hpp:98-105. -/
def contractBits64_1 (x : BitVec 64) : BitVec 64 :=
  let x := packStep x 1 0x3333333333333333#64
  let x := packStep x 2 0x0f0f0f0f0f0f0f0f#64
  let x := packStep x 4 0x00ff00ff00ff00ff#64
  let x := packStep x 8 0x0000ffff0000ffff#64
  packStep x 16 0x00000000ffffffff#64

/-- `contract_bits<u32,2>`, bmi.hpp:113-119. -/
def contractBits32_2 (x : BitVec 32) : BitVec 32 :=
  let x := packStep x 2 0x30C30C3#32
  let x := packStep x 4 0xF00F00F#32
  let x := packStep x 8 0xFF0000FF#32
  packStep x 16 0xFFFF#32

/-- `contract_bits<u32,1>`, bmi.hpp:122-128. -/
def contractBits32_1 (x : BitVec 32) : BitVec 32 :=
  let x := packStep x 1 0x33333333#32
  let x := packStep x 2 0x0f0f0f0f#32
  let x := packStep x 4 0x00ff00ff#32
  packStep x 8 0x0000ffff#32

/-- `contract_bits<_,0>`, bmi.hpp:108-110 and 131-133. -/
def contractBits_0 {w : Nat} (x : BitVec w) : BitVec w := x

/-! ### morton.hpp -/

/-- `MortonCodes<u32,3>::icoord_to_morton`, morton.hpp:59-64. -/
def morton32 (c : V3 (BitVec 32)) : BitVec 32 :=
  expandBits32_2 c.x * 4 + expandBits32_2 c.y * 2 + expandBits32_2 c.z

/-- `MortonCodes<u32,3>::morton_to_icoord`, morton.hpp:95-103 (the casts to `u16`). -/
def icoord32 (m : BitVec 32) : V3 (BitVec 16) :=
  ⟨(contractBits32_2 ((m &&& 0x24924924#32) >>> 2)).setWidth 16,
   (contractBits32_2 ((m &&& 0x12492492#32) >>> 1)).setWidth 16,
   (contractBits32_2 ((m &&& 0x09249249#32) >>> 0)).setWidth 16⟩

/-- `MortonCodes<u64,3>::icoord_to_morton`, morton.hpp:127-132. -/
def morton64 (c : V3 (BitVec 64)) : BitVec 64 :=
  expandBits64_2 c.x * 4 + expandBits64_2 c.y * 2 + expandBits64_2 c.z

/-- `MortonCodes<u64,3>::morton_to_icoord`, morton.hpp:163-171 (implicit conversion to `u32`). -/
def icoord64 (m : BitVec 64) : V3 (BitVec 32) :=
  ⟨(contractBits64_2 ((m &&& 0x4924924924924924#64) >>> 2)).setWidth 32,
   (contractBits64_2 ((m &&& 0x2492492492492492#64) >>> 1)).setWidth 32,
   (contractBits64_2 ((m &&& 0x1249249249249249#64) >>> 0)).setWidth 32⟩

/-- `v >> k` on a 32 bit unsigned value, undefined for `k ≥ 32`. -/
def shr32 (v k : Nat) : Option Nat := if k < 32 then some (v >>> k) else none

/-- `MortonCodes<u32,3>::get_offset`, morton.hpp:105-111; `clz_` is a `u32`, the result is stored in `u16`. -/
def getOffset32 (clz_ : Nat) : Option (V3 (BitVec 16)) := do
  let x ← shr32 1024 (u32sub clz_ 0 / 3)
  let y ← shr32 1024 (u32sub clz_ 1 / 3)
  let z ← shr32 1024 (u32sub clz_ 2 / 3)
  pure ⟨BitVec.ofNat 16 x, BitVec.ofNat 16 y, BitVec.ofNat 16 z⟩

/-- `MortonCodes<u64,3>::get_offset`, morton.hpp:173-179. -/
def getOffset64 (clz_ : Nat) : Option (V3 (BitVec 32)) := do
  let x ← shr32 2097152 (u32add clz_ 1 / 3)
  let y ← shr32 2097152 (u32sub clz_ 0 / 3)
  let z ← shr32 2097152 (u32sub clz_ 1 / 3)
  pure ⟨BitVec.ofNat 32 x, BitVec.ofNat 32 y, BitVec.ofNat 32 z⟩

/-- `is_morton_bounding_box`, morton.hpp:66-69 and 134-137 (`mv = max_val`). -/
def isMortonBoundingBox {w : Nat} (mv : BitVec w) (mn mx : V3 (BitVec w)) : Bool :=
  mn.x == 0 && mn.y == 0 && mn.z == 0 && mx.x == mv && mx.y == mv && mx.z == mv

/-! ### compute_ranges.cpp -/

/-- `get_mask`, compute_ranges.cpp:77-87: shift by `w - clz_`, undefined for `clz_ = 0` (shift by the width). -/
def getMask (w clz_ : Nat) : Option (BitVec w) :=
  if clz_ = 0 ∨ w < clz_ then none else some (BitVec.allOnes w <<< (w - clz_))

/-- Component wise addition and subtraction of integer vectors. -/
def V3.vadd {w : Nat} (a b : V3 (BitVec w)) : V3 (BitVec w) := ⟨a.x + b.x, a.y + b.y, a.z + b.z⟩
def V3.vsub {w : Nat} (a b : V3 (BitVec w)) : V3 (BitVec w) := ⟨a.x - b.x, a.y - b.y, a.z - b.z⟩

/-- The boxes (min, max) written by work item `gid` of `sycl_compute_cell_ranges`, compute_ranges.cpp:65-110: for the internal
node itself, for its left child and for its right child (the last two are stored only if the child is a leaf).
`m0 = morton_map[gid]`, `m1 = morton_map[end_range_map[gid]]`. -/
structure CellBoxes (w : Nat) where
  node : V3 (BitVec w) × V3 (BitVec w)
  left : V3 (BitVec w) × V3 (BitVec w)
  right : V3 (BitVec w) × V3 (BitVec w)
  deriving DecidableEq

def cellBoxesOf {w : Nat} (minCell off off1 : V3 (BitVec w)) : CellBoxes w :=
  let tmp := off.vsub off1
  { node := (minCell, off.vadd minCell)
    left := (minCell, off1.vadd minCell)
    right := (minCell.vadd tmp, (off1.vadd minCell).vadd tmp) }

/-- The `u32` code instance. -/
def cellRanges32 (m0 m1 : BitVec 32) : Option (CellBoxes 16) := do
  let c := clz (m0 ^^^ m1)
  let mask ← getMask 32 c
  let off ← getOffset32 c
  let off1 ← getOffset32 (c + 1)
  pure (cellBoxesOf (icoord32 (m0 &&& mask)) off off1)

/-- The `u64` code instance. -/
def cellRanges64 (m0 m1 : BitVec 64) : Option (CellBoxes 32) := do
  let c := clz (m0 ^^^ m1)
  let mask ← getMask 64 c
  let off ← getOffset64 c
  let off1 ← getOffset64 (c + 1)
  pure (cellBoxesOf (icoord64 (m0 &&& mask)) off off1)

end Shamrock
