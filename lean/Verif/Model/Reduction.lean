import Verif.Model.Karras
import Verif.Model.Scan
import Verif.Model.Search
/-! The tree reduction: /repo/src/shamtree/src/kernels/reduction_alg.cpp and `reduce_morton_set`,
/repo/src/shamtree/src/MortonReducedSet.cpp:23-75. The sorted codes are `n` words read through `m`. Each kernel here writes only the entry of
its own work item and reads buffers that no item writes, so the order of the work items is irrelevant. -/
namespace Shamrock

/-- `sycl_generate_split_table`, reduction_alg.cpp:62-85. -/
def splitTable {w : Nat} (n : Nat) (m : Nat → BitVec w) : List W32 :=
  (List.range n).map fun i => if 0 < i then (if m (i - 1) ≠ m i then 1#32 else 0#32) else 1#32

/-- `while (b <= cnt - 1 && !split_in[b]) b--;`, reduction_alg.cpp:219-227 (u32 arithmetic). `none` = out of bounds or fuel exhausted. -/
def beforeLoop (n : Nat) (tab : List W32) : Nat → Nat → Option Nat
  | 0, _ => none
  | fuel + 1, b =>
    if b ≤ u32sub n 1 then (tab[b]?).bind fun f => if f = 0#32 then beforeLoop n tab fuel (u32sub b 1) else some b
    else some b

/-- `while (b <= cnt - 1 && !split_in[b]) b++;`, reduction_alg.cpp:230-232. -/
def nextLoop (n : Nat) (tab : List W32) : Nat → Nat → Option Nat
  | 0, _ => none
  | fuel + 1, b =>
    if b ≤ u32sub n 1 then (tab[b]?).bind fun f => if f = 0#32 then nextLoop n tab fuel (u32add b 1) else some b
    else some b

/-- The lambda `DELTA(i32 x, i32 y)`, reduction_alg.cpp:214-216, on u32 arguments; `none` = read of a code out of bounds. -/
def deltaU32 {w : Nat} (n : Nat) (m : Nat → BitVec w) (x y : Nat) : Option Int :=
  let xi := wrapI32 x
  let yi := wrapI32 y
  if yi < 0 ∨ (n : Int) - 1 < yi then some (-1)
  else if 0 ≤ xi ∧ xi < n then some (karrasDelta n m xi.toNat yi) else none

/-- Work item `i` of `sycl_reduction_iteration`, reduction_alg.cpp:209-243. -/
def reducItem {w : Nat} (n : Nat) (m : Nat → BitVec w) (tab : List W32) (i : Nat) : Option W32 := do
  let b1 ← beforeLoop n tab (n + 1) (u32sub i 1)
  let b2 ← beforeLoop n tab (n + 1) (u32sub b1 1)
  let nx ← nextLoop n tab (n + 1) (u32add i 1)
  let d0 ← deltaU32 n m i nx
  let dm ← deltaU32 n m i b1
  let dmm ← deltaU32 n m b1 b2
  let f ← tab[i]?
  pure (if ¬ (d0 < dm ∧ dmm < dm) ∧ f ≠ 0#32 then 1#32 else 0#32)

/-- `sycl_reduction_iteration`, reduction_alg.cpp:196-244. -/
def reducPass {w : Nat} (n : Nat) (m : Nat → BitVec w) (tab : List W32) : Option (List W32) := (List.range n).mapM (reducItem n m tab)

/-- The loop over the levels with the two tables, reduction_alg.cpp:426-443, from iteration `iter`, `k` iterations left. -/
def reducLoop {w : Nat} (n : Nat) (m : Nat → BitVec w) : Nat → Nat → List W32 × List W32 → Option (List W32 × List W32)
  | 0, _, t => some t
  | k + 1, iter, t =>
    if iter % 2 = 0 then (reducPass n m t.2).bind fun r => reducLoop n m k (iter + 1) (r, t.2)
    else (reducPass n m t.1).bind fun r => reducLoop n m k (iter + 1) (t.1, r)

/-- The final split table, reduction_alg.cpp:420-453; `junk` is the uninitialised second table. -/
def finalTable {w : Nat} (n : Nat) (m : Nat → BitVec w) (level : Nat) (junk : List W32) : Option (List W32) :=
  (reducLoop n m level 1 (splitTable n m, junk)).map fun t => if level % 2 = 0 then t.1 else t.2

/-- `reduction_alg`, reduction_alg.cpp:413-456 with `make_indexmap` :357-373 and `update_morton_buf` :274-295: the index map (with its two
extra entries) and the number of cells. -/
def reductionAlg {w : Nat} (n : Nat) (m : Nat → BitVec w) (level : Nat) (junk : List W32) (garbage : Nat → Nat) (order : List Nat) :
    Option (List Nat × Nat) := do
  let tab ← finalTable n m level junk
  let buf ← streamCompact tab garbage order
  pure (buf ++ [n, 0], buf.length)

/-- `reduce_morton_set`, MortonReducedSet.cpp:23-75, with `sycl_morton_remap_reduction`, reduction_alg.cpp:564-585: index map, number of cells,
and the codes of the reduced cells. Throws when there is no cell (here: `none`). -/
def reduceMortonSet {w : Nat} (n : Nat) (m : Nat → BitVec w) (level : Nat) (junk : List W32) (garbage : Nat → Nat) (order : List Nat) :
    Option (List Nat × Nat × List (BitVec w)) := do
  let r ← reductionAlg n m level junk garbage order
  if r.2 = 0 then none
  else
    let codes ← (List.range r.2).mapM fun i => (r.1[i]?).bind fun a => if a < n then some (m a) else none
    pure (r.1, r.2, codes)

end Shamrock
