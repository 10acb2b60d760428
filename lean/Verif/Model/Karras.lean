import Verif.Model.Integer
/-! The radix tree construction of Karras (2012): /repo/src/shamtree/src/KarrasRadixTree.cpp:45-143.

The codes are an array of `n` words read through `m : Nat → BitVec w`. Signed 32 bit values are integers; conversions wrap. -/
namespace Shamrock

/-- Conversion of an integer to `i32`. -/
def wrapI32 (x : Int) : Int := (x + 2 ^ 31) % 2 ^ 32 - 2 ^ 31

/-- Conversion of an integer to `u32`. -/
def wrapU32 (x : Int) : Nat := (x % 2 ^ 32).toNat

/-- `sham::karras_delta`, /repo/src/shambackends/include/shambackends/math.hpp:825-828 (`clz_xor` :782-785). The argument `y` is
converted to `i32` by the caller. -/
def karrasDelta {w : Nat} (n : Nat) (m : Nat → BitVec w) (x : Nat) (y : Int) : Int :=
  if y < 0 ∨ (n : Int) - 1 < y then -1 else (clz (m x ^^^ m y.toNat) : Nat)

/-- `SGN`, KarrasRadixTree.cpp:28. -/
def sgn (x : Int) : Int := if x = 0 then 0 else if 0 < x then 1 else -1

/-- `while (DELTA(i, i + lmax * d) > delta_min) lmax *= 2;`, KarrasRadixTree.cpp:90-93; `test x` is the comparison for offset `x`.
`none` = signed overflow of `lmax`. Called with `lmax = 2` and 29 possible doublings. -/
def lmaxLoop (test : Nat → Bool) : Nat → Nat → Option Nat
  | 0, lmax => if test lmax then none else some lmax
  | fuel + 1, lmax => if test lmax then lmaxLoop test fuel (lmax * 2) else some lmax

/-- The binary search for the other end, KarrasRadixTree.cpp:96-103 (`t < 2^31`: at most 31 iterations). -/
def findEndLoop (test : Nat → Bool) : Nat → Nat → Nat → Nat
  | 0, l, _ => l
  | fuel + 1, l, t => if 0 < t then findEndLoop test fuel (if test (l + t) then l + t else l) (t / 2) else l

/-- Conversion of a non negative `int` to `f32`: round to nearest even on 24 bits; the value is an integer again. -/
def f32OfNat (l : Nat) : Nat :=
  if l < 2 ^ 24 then l
  else
    let e := l.log2 - 23
    let q := l / 2 ^ e
    let r := l % 2 ^ e
    let q' := if 2 * r < 2 ^ e then q else if 2 ^ e < 2 * r then q + 1 else q + q % 2
    q' * 2 ^ e

/-- `sycl::ceil(l / div)` with `div = 2^k` in `f32` (division by a power of two is exact), KarrasRadixTree.cpp:114 and 123. -/
def splitStep (l k : Nat) : Nat := (f32OfNat l + 2 ^ k - 1) / 2 ^ k

/-- The search of the split position, KarrasRadixTree.cpp:115-124 (at most 32 iterations, `none` if more). -/
def splitLoop (test : Nat → Bool) (l : Nat) : Nat → Nat → Nat → Option Nat
  | 0, _, _ => none
  | fuel + 1, k, s =>
    let t := splitStep l k
    let s' := if test (s + t) then s + t else s
    if t ≤ 1 then some s' else splitLoop test l fuel (k + 1) s'

/-- What one work item writes at index `i`. -/
structure KNode where
  endRange : Nat
  lchild : Nat
  lflag : Bool
  rchild : Nat
  rflag : Bool
  deriving DecidableEq, Repr

/-- The end search of work item `i`: the direction `d` and the length `l`, KarrasRadixTree.cpp:80-104. -/
def karrasRange {w : Nat} (n : Nat) (m : Nat → BitVec w) (i : Nat) : Option (Int × Nat) :=
  let D := fun (y : Int) => karrasDelta n m i (wrapI32 y)
  let d := sgn (D (i + 1) - D (i - 1))
  let dmin := D (i - d)
  let test := fun (x : Nat) => decide (dmin < D (i + x * d))
  (lmaxLoop test 29 2).map fun lmax => (d, findEndLoop test 31 0 (lmax / 2))

/-- The split search and the outputs of work item `i`, KarrasRadixTree.cpp:105-141. -/
def karrasSplit {w : Nat} (n : Nat) (m : Nat → BitVec w) (i : Nat) (d : Int) (l : Nat) : Option KNode :=
  let D := fun (y : Int) => karrasDelta n m i (wrapI32 y)
  let j := wrapU32 (i + l * d)
  let dnode := D j
  (splitLoop (fun x => decide (dnode < D (i + x * d))) l 32 1 0).map fun (s : Nat) =>
    let gamma := wrapU32 (i + s * d + min d 0)
    { endRange := j
      lchild := gamma
      lflag := min i j == gamma
      rchild := wrapU32 (gamma + 1)
      rflag := max i j == wrapU32 (gamma + 1) }

/-- Work item `i` of `__karras_alg`, KarrasRadixTree.cpp:65-141. It writes only the entries of index `i`, so the order of the
work items is irrelevant. -/
def karrasNode {w : Nat} (n : Nat) (m : Nat → BitVec w) (i : Nat) : Option KNode :=
  (karrasRange n m i).bind fun r => karrasSplit n m i r.1 r.2

/-- `karras_tree_from_morton_set`, KarrasRadixTree.cpp:153-180: `n` codes give `n - 1` internal cells. -/
def karrasTree {w : Nat} (n : Nat) (m : Nat → BitVec w) : Option (List KNode) := (List.range (n - 1)).mapM (karrasNode n m)

/-- `get_tree_depth`, KarrasRadixTree.cpp:147-150. -/
def karrasTreeDepth (w : Nat) : Nat := w

end Shamrock
