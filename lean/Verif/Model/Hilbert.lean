import Verif.Model.Morton
/-! Hilbert curve: /repo/src/shammath/include/shammath/sfc/hilbert.hpp. -/
namespace Shamrock

/-- hilbert.hpp:47-54 with `i = 0`. -/
def hilbSub0 (Q : BitVec 64) (X : V3 (BitVec 64)) : V3 (BitVec 64) :=
  let P := Q - 1
  if X.x &&& Q ≠ 0 then { X with x := X.x ^^^ P }
  else
    let t := (X.x ^^^ X.x) &&& P
    { X with x := (X.x ^^^ t) ^^^ t }

/-- hilbert.hpp:47-54 with `i = 1`. -/
def hilbSub1 (Q : BitVec 64) (X : V3 (BitVec 64)) : V3 (BitVec 64) :=
  let P := Q - 1
  if X.y &&& Q ≠ 0 then { X with x := X.x ^^^ P }
  else
    let t := (X.x ^^^ X.y) &&& P
    { X with x := X.x ^^^ t, y := X.y ^^^ t }

/-- hilbert.hpp:47-54 with `i = 2`. -/
def hilbSub2 (Q : BitVec 64) (X : V3 (BitVec 64)) : V3 (BitVec 64) :=
  let P := Q - 1
  if X.z &&& Q ≠ 0 then { X with x := X.x ^^^ P }
  else
    let t := (X.x ^^^ X.z) &&& P
    { X with x := X.x ^^^ t, z := X.z ^^^ t }

/-- The loop `for (Q = M; Q > 1; Q >>= 1)` of hilbert.hpp:45-55, started with `Q = 2^k` (it runs for `Q = 2^k, ..., 2`). -/
def hilbUndo : Nat → V3 (BitVec 64) → V3 (BitVec 64)
  | 0, X => X
  | k + 1, X =>
    let Q := 1#64 <<< (k + 1)
    hilbUndo k (hilbSub2 Q (hilbSub1 Q (hilbSub0 Q X)))

/-- The loop of hilbert.hpp:60-63, started with `Q = 2^k` and the accumulator `t`. -/
def hilbMask : Nat → BitVec 64 → BitVec 64 → BitVec 64
  | 0, _, t => t
  | k + 1, X2, t =>
    let Q := 1#64 <<< (k + 1)
    hilbMask k X2 (if X2 &&& Q ≠ 0 then t ^^^ (Q - 1) else t)

/-- `details::compute_hilbert_index_3d<bits>`, hilbert.hpp:36-72 (`M = 1 << (bits - 1)`; the deprecated copy of lines 148-185 is the same
text). `expand_bits<u64, 2>` keeps the low 21 bits, so the function is only used with `bits = 21`. -/
def hilbertIndex3 (bits : Nat) (x y z : BitVec 64) : BitVec 64 :=
  let X := hilbUndo (bits - 1) ⟨x, y, z⟩
  let X1 := X.y ^^^ X.x
  let X2 := X.z ^^^ X1
  let t := hilbMask (bits - 1) X2 0
  let e0 := expandBits64_2 (X.x ^^^ t) <<< 2
  let e1 := expandBits64_2 (X1 ^^^ t) <<< 1
  let e2 := expandBits64_2 (X2 ^^^ t)
  e0 + e1 + e2

/-- `HilbertCurve<u64, 3>::icoord_to_hilbert`, hilbert.hpp:85-87. -/
def icoordToHilbert (x y z : BitVec 64) : BitVec 64 := hilbertIndex3 21 x y z

/-- `HilbertCurve<quad_hilbert_num, 3>::icoord_to_hilbert`, hilbert.hpp:119-140 (`divisor = max_val + 1 = 2097152`). -/
def icoordToHilbertQuad (x y z : BitVec 64) : BitVec 64 × BitVec 64 :=
  let divisor := 2097152#64
  (hilbertIndex3 21 (x / divisor) (y / divisor) (z / divisor),
   hilbertIndex3 21 (x % divisor) (y % divisor) (z % divisor))

/-- `operator<` of `std::pair<u64, u64>`, the order in which the load balancer sorts the wide indices. -/
def wideLt (a b : BitVec 64 × BitVec 64) : Prop := a.1 < b.1 ∨ a.1 = b.1 ∧ a.2 < b.2

end Shamrock
