/-
Model of the integer helpers of shambase and shambackends.
Machine words are `BitVec w`; all operators wrap exactly like the C++ unsigned operators.
Undefined behaviour (shift by at least the width) is the outcome `none`.
-/
namespace Shamrock

/-- Number of leading zeros of a `w` bit word (`sham::clz`, /repo/src/shambackends/include/shambackends/math.hpp:740-772,
`sycl::clz` or a compiler builtin; we use the SYCL specification `clz 0 = w`; on the acpp host
path the builtin is undefined for 0). -/
def clz {w : Nat} (v : BitVec w) : Nat :=
  if v.toNat = 0 then w else w - 1 - v.toNat.log2

/-- `shambase::is_pow_of_two_fast`, /repo/src/shambase/include/shambase/integer.hpp:36-38. -/
def isPowOfTwoFast {w : Nat} (v : BitVec w) : Bool := (v &&& (v - 1)) == 0

/-- `shambase::is_pow_of_two`, /repo/src/shambase/include/shambase/integer.hpp:49-51. -/
def isPowOfTwo {w : Nat} (v : BitVec w) : Bool := v != 0 && (v &&& (v - 1)) == 0

/-- `shambase::xor_swap`, /repo/src/shambase/include/shambase/integer.hpp:77-81, on two distinct variables;
returns the new `(a, b)`. -/
def xorSwap {w : Nat} (a b : BitVec w) : BitVec w × BitVec w :=
  let a1 := a ^^^ b
  let b1 := b ^^^ a1
  let a2 := a1 ^^^ b1
  (a2, b1)

/-- `shambase::roundup_pow2`, 32 bit branch, /repo/src/shambase/include/shambase/integer.hpp:94-103. -/
def roundupPow2U32 (v : BitVec 32) : BitVec 32 :=
  let v := v - 1
  let v := v ||| (v >>> 1)
  let v := v ||| (v >>> 2)
  let v := v ||| (v >>> 4)
  let v := v ||| (v >>> 8)
  let v := v ||| (v >>> 16)
  v + 1

/-- `shambase::roundup_pow2`, 64 bit branch, /repo/src/shambase/include/shambase/integer.hpp:105-115. -/
def roundupPow2U64 (v : BitVec 64) : BitVec 64 :=
  let v := v - 1
  let v := v ||| (v >>> 1)
  let v := v ||| (v >>> 2)
  let v := v ||| (v >>> 4)
  let v := v ||| (v >>> 8)
  let v := v ||| (v >>> 16)
  let v := v ||| (v >>> 32)
  v + 1

/-- `shambase::group_count`, /repo/src/shambase/include/shambase/integer.hpp:125-127.
`none` = division by zero (undefined behaviour). -/
def groupCount (len groupSize : BitVec 32) : Option (BitVec 32) :=
  if groupSize = 0 then none else some ((len + groupSize - 1) / groupSize)

/-- `sham::pack32`, /repo/src/shambackends/include/shambackends/math.hpp:613. -/
def pack32 (a b : BitVec 32) : BitVec 64 := (a.setWidth 64 <<< 32) + b.setWidth 64

/-- `sham::unpack32`, /repo/src/shambackends/include/shambackends/math.hpp:615. -/
def unpack32 (v : BitVec 64) : BitVec 32 × BitVec 32 := ((v >>> 32).setWidth 32, v.setWidth 32)

/-- C++ `1U << n`: a 32 bit shift, undefined for `n ≥ 32`. -/
def shl1U (n : Nat) : Option (BitVec 32) := if n < 32 then some (1 <<< n) else none

/-- `sham::roundup_pow2_clz<T>`, /repo/src/shambackends/include/shambackends/math.hpp:804-813,
for an unsigned `T` of `w` bits.  The shifted literal is `1U`, i.e. 32 bits wide whatever `T` is. -/
def roundupPow2Clz {w : Nat} (v : BitVec w) : Option (BitVec w) :=
  let maxSignedP1 : BitVec w := (BitVec.allOnes w >>> 1) + 1
  if v > maxSignedP1 then some 0
  else if isPowOfTwo v then some v
  else (shl1U (w - clz v)).map (·.setWidth w)

/-- `sham::log2_pow2_num`, /repo/src/shambackends/include/shambackends/math.hpp:791-793
(on naturals, `T` has `w` bits; the wrap around for `v = 0` is not modelled). -/
def log2Pow2Num {w : Nat} (v : BitVec w) : Nat := w - clz v - 1

/-- `shambase::pow_constexpr`, /repo/src/shambase/include/shambase/integer.hpp:173-185, over any
multiplicative type; the C++ template recursion on a non negative `power`. -/
def powConstexpr {α : Type} [Mul α] [OfNat α 1] (power : Nat) (a : α) : α :=
  if _h : power = 0 then 1
  else if power % 2 = 0 then
    let tmp := powConstexpr (power / 2) a
    tmp * tmp
  else
    let tmp := powConstexpr ((power - 1) / 2) a
    tmp * tmp * a
termination_by power
decreasing_by all_goals omega

/-- A C++ integer type: signedness and number of bits (`std::numeric_limits`). -/
structure IntTy where
  signed : Bool
  bits : Nat
deriving DecidableEq, Repr

/-- `std::numeric_limits<T>::min()`. -/
def IntTy.minv (t : IntTy) : Int := if t.signed then -(2 ^ (t.bits - 1) : Int) else 0
/-- `std::numeric_limits<T>::max()`. -/
def IntTy.maxv (t : IntTy) : Int := if t.signed then 2 ^ (t.bits - 1) - 1 else 2 ^ t.bits - 1
/-- C++ `static_cast<T>` of an integer value (modular, C++20). -/
def IntTy.cast (t : IntTy) (v : Int) : Int :=
  let u := v % 2 ^ t.bits
  if t.signed && decide (2 ^ (t.bits - 1) ≤ u) then u - 2 ^ t.bits else u
/-- `std::make_unsigned_t<T>`. -/
def IntTy.makeUnsigned (t : IntTy) : IntTy := { t with signed := false }

/-- `shambase::can_narrow<U,T>`, /repo/src/shambase/include/shambase/narrowing.hpp:53-80 (the four `if constexpr` cases). -/
def canNarrow (U T : IntTy) (val : Int) : Bool :=
  if T.signed then
    if U.signed then decide (val ≥ U.minv) && decide (val ≤ U.maxv)
    else decide (val ≥ 0) && decide (T.makeUnsigned.cast val ≤ U.maxv)
  else
    if U.signed then decide (val ≤ U.makeUnsigned.cast U.maxv)
    else decide (val ≤ U.maxv)

/-- `shambase::narrow_or_throw<U,T>`, /repo/src/shambase/include/shambase/narrowing.hpp:82-100; `none` = throw. -/
def narrowOrThrow (U T : IntTy) (val : Int) : Option Int :=
  if canNarrow U T val then some (U.cast val) else none

/-- One byte-pair swap of `endian_swap`, /repo/src/shambase/include/shambase/endian.hpp:63
(`i ≠ sz-1-i` for every `i < sz/2`, so the two byte variables are distinct). -/
def endianSwapStep (sz : Nat) (bytes : List (BitVec 8)) (i : Nat) : List (BitVec 8) :=
  let (x, y) := xorSwap (bytes.getD i 0) (bytes.getD (sz - 1 - i) 0)
  (bytes.set i x).set (sz - 1 - i) y

/-- `shambase::endian_swap`, /repo/src/shambase/include/shambase/endian.hpp:43-65, on the byte
representation of the value. -/
def endianSwap (bytes : List (BitVec 8)) : List (BitVec 8) :=
  let sz := bytes.length
  let steps := if sz % 2 = 0 then sz / 2 else (sz - 1) / 2
  (List.range steps).foldl (endianSwapStep sz) bytes

end Shamrock
