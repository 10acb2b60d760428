import Verif.Model.Patch
import Mathlib.Order.Defs.LinearOrder
/-! Model of the binary searches, the insertion sorts and the odd-even transposition network.

Device / host arrays are `List`s; reading or writing outside is undefined behaviour and gives `none`. -/
namespace Shamrock

/-- C++ `u32` addition. -/
def u32add (a b : Nat) : Nat := (a + b) % 2 ^ 32
/-- C++ `u32` subtraction. -/
def u32sub (a b : Nat) : Nat := (a + 2 ^ 32 - b) % 2 ^ 32
/-- C++ `u32` multiplication. -/
def u32mul (a b : Nat) : Nat := (a * b) % 2 ^ 32

/-- `data[i] = v` with bounds check (`none` = out of bounds). -/
def wr {α} (l : List α) (i : Nat) (v : α) : Option (List α) := if i < l.length then some (l.set i v) else none

/-- The loop of `binary_search_lower_bound`, /repo/src/shamalgs/include/shamalgs/primitives/lower_bound.hpp:31-37
(`first`, `length` are the loop variables). -/
def lowerBoundLoop {α} [LinearOrder α] (key : List α) (value : α) (first length : Nat) : Option Nat :=
  if 0 < length then do
    let rem := length % 2
    let half := length / 2
    let k ← key[u32add first half]?
    if k < value then lowerBoundLoop key value (u32add first (u32add half rem)) half
    else lowerBoundLoop key value first half
  else some first
termination_by length
decreasing_by all_goals omega

/-- `binary_search_lower_bound`, lower_bound.hpp:25-40. -/
def lowerBound {α} [LinearOrder α] (key : List α) (first last : Nat) (value : α) : Option Nat :=
  lowerBoundLoop key value first (u32sub last first)

/-- The loop of `binary_search_upper_bound`, /repo/src/shamalgs/include/shamalgs/primitives/upper_bound.hpp:31-37. -/
def upperBoundLoop {α} [LinearOrder α] (key : List α) (value : α) (first length : Nat) : Option Nat :=
  if 0 < length then do
    let rem := length % 2
    let half := length / 2
    let k ← key[u32add first half]?
    if k ≤ value then upperBoundLoop key value (u32add first (u32add half rem)) half
    else upperBoundLoop key value first half
  else some first
termination_by length
decreasing_by all_goals omega

/-- `binary_search_upper_bound`, upper_bound.hpp:25-40. -/
def upperBound {α} [LinearOrder α] (key : List α) (first last : Nat) (value : α) : Option Nat :=
  upperBoundLoop key value first (u32sub last first)

/-- binary_range_search.hpp:81-83. -/
def rangeAdjInf {α} [LinearOrder α] (key : List α) (first last : Nat) (vmin : α) (inf : Nat) : Option Nat :=
  if first < inf ∧ inf < last then (key[inf]?).map (fun k => u32sub inf (if vmin < k then 1 else 0)) else some inf

/-- binary_range_search.hpp:84-86. -/
def rangeAdjSup {α} [LinearOrder α] (key : List α) (first last : Nat) (vmax : α) (sup : Nat) : Option Nat :=
  if first < sup ∧ sup ≤ last then (key[u32sub sup 1]?).map (fun k => u32sub sup (if k = vmax then 1 else 0)) else some sup

/-- `binary_range_search`, /repo/src/shamalgs/include/shamalgs/primitives/binary_range_search.hpp:59-87; returns `(inf, sup)`.
The three `SHAM_ASSERT`s (lines 68-70) are preconditions and are not executed in release builds. -/
def binaryRangeSearch {α} [LinearOrder α] (key : List α) (first last : Nat) (vmin vmax : α) : Option (Nat × Nat) := do
  let inf ← lowerBound key first last vmin
  let sup ← upperBound key first last vmax
  let inf' ← rangeAdjInf key first last vmin inf
  let sup' ← rangeAdjSup key first last vmax sup
  pure (inf', sup')

/-- The inner `while (j > start && comp(key, data[j-1]))` loop followed by `data[j] = key`,
/repo/src/shambase/include/shambase/alg_primitives.hpp:38-44. -/
def insertShift {α} (comp : α → α → Bool) (start : Nat) (key : α) : Nat → List α → Option (List α)
  | 0, data => wr data 0 key
  | j + 1, data =>
    if start < j + 1 then do
      let d ← data[j]?
      if comp key d then do
        let data' ← wr data (j + 1) d
        insertShift comp start key j data'
      else wr data (j + 1) key
    else wr data (j + 1) key

/-- The outer `for (u32 i = start + 1; i < end; ++i)` loop, alg_primitives.hpp:36-45; `fuel` is `end - i`. -/
def insertSortFrom {α} (comp : α → α → Bool) (start : Nat) : Nat → Nat → List α → Option (List α)
  | 0, _, data => some data
  | fuel + 1, i, data => do
    let key ← data[i]?
    let data' ← insertShift comp start key i data
    insertSortFrom comp start fuel (i + 1) data'

/-- `ptr_insert_sort(data, start, end, comp)`, alg_primitives.hpp:35-46. -/
def ptrInsertSort {α} (comp : α → α → Bool) (start fin : Nat) (data : List α) : Option (List α) :=
  insertSortFrom comp start (fin - (start + 1)) (start + 1) data

/-- `std::sort(buf.begin() + start, buf.begin() + end, comp)`, /repo/src/shamalgs/src/primitives/segmented_sort_in_place.cpp:96, where
`srt` is what the standard library does to the range. -/
def stdSortRange {α} (srt : List α → List α) (start fin : Nat) (data : List α) : Option (List α) :=
  if start ≤ fin ∧ fin ≤ data.length then
    some (data.take start ++ srt ((data.drop start).take (fin - start)) ++ data.drop fin)
  else none

/-- Work item `gid` of `segmented_sort_in_place_local_insertion_sort` (`sortRange` is `ptr_insert_sort`), segmented_sort_in_place.cpp:39-60,
or iteration `gid` of the parallel loop of `segmented_sort_in_place_multi_std_sort` (`std::sort`), :76-97. -/
def segSortItem {α} (sortRange : Nat → Nat → List α → Option (List α)) (offsets : List Nat) (gid : Nat) (buf : List α) : Option (List α) := do
  let s ← offsets[gid]?
  let e ← offsets[gid + 1]?
  if s = e then pure buf else sortRange s e buf

/-- Result of an entry point that may throw. -/
inductive Outcome (α : Type) where
  | ok (a : α)
  | throws
deriving DecidableEq, Repr

/-- `internal_segmented_sort_in_place`, segmented_sort_in_place.cpp:167-191, the work items of the launch (or the iterations of the
parallel loop) running in the order `order`; `none` is undefined behaviour. -/
def segmentedSortWith {α} (sortRange : Nat → Nat → List α → Option (List α)) (offsets : List Nat) (order : List Nat) (buf : List α) :
    Option (Outcome (List α)) :=
  if buf.length = 0 then some (.ok buf)
  else if offsets.length = 0 then some .throws
  else (order.foldlM (fun b gid => segSortItem sortRange offsets gid b) buf).map .ok

/-- The insertion sort implementation, segmented_sort_in_place.cpp:180-182. -/
def segmentedSort {α} (comp : α → α → Bool) (offsets : List Nat) (order : List Nat) (buf : List α) :
    Option (Outcome (List α)) := segmentedSortWith (ptrInsertSort comp) offsets order buf

/-- The default implementation (:114-116), with `std::sort` on each segment, segmented_sort_in_place.cpp:184-186. -/
def segmentedSortStd {α} (srt : List α → List α) (offsets : List Nat) (order : List Nat) (buf : List α) :
    Option (Outcome (List α)) := segmentedSortWith (stdSortRange srt) offsets order buf

/-- The comparison of `segmented_sort_in_place<u32_2>`, segmented_sort_in_place.cpp:197-199. -/
def pair2Lt (a b : Nat × Nat) : Bool := if a.1 = b.1 then a.2 < b.2 else a.1 < b.1

/-- One comparator of the odd-even network: alg_primitives.hpp:54-56. -/
def oetCmp {α} (comp : α → α → Bool) (bnd : List Bool) (i : Nat) (keys : List α) : Option (List α) := do
  let f ← bnd[i]?
  if f then pure keys
  else do
    let a ← keys[i]?
    let b ← keys[i + 1]?
    if comp b a then do
      let k1 ← wr keys i b
      wr k1 (i + 1) a
    else pure keys

/-- The loop `for (int i = 1 & I; i < ArrSize - 1; i += 2)`, alg_primitives.hpp:53-57 (`i` as natural; `ArrSize ≥ 1`). -/
def oetPass {α} (comp : α → α → Bool) (bnd : List Bool) (n i : Nat) (keys : List α) : Option (List α) :=
  if i + 1 < n then do
    let k ← oetCmp comp bnd i keys
    oetPass comp bnd n (i + 2) k
  else some keys
termination_by n - i

/-- `OddEvenTransposeSortT<I, ArrSize>::Sort` with `ArrSize - I = fuel`, alg_primitives.hpp:48-66. -/
def oetSortT {α} (comp : α → α → Bool) (bnd : List Bool) (n : Nat) : Nat → Nat → List α → Option (List α)
  | 0, _, keys => some keys
  | fuel + 1, I, keys => do
    let k ← oetPass comp bnd n (I % 2) keys
    oetSortT comp bnd n fuel (I + 1) k

/-- `odd_even_transpose_sort_segment_flags<T, ArrSize>`, alg_primitives.hpp:79-83. -/
def oetSort {α} (comp : α → α → Bool) (bnd : List Bool) (n : Nat) (keys : List α) : Option (List α) :=
  oetSortT comp bnd n n 0 keys

end Shamrock
