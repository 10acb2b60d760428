import Verif.Model.Morton
import Verif.Model.Patch
import Verif.Model.Bitonic
import Verif.Model.Reduction
import Verif.Model.TreeOps
import Verif.Model.Res
/-! `CompressedLeafBVH`: build from positions and object search. -/
namespace Shamrock

/-- Rounded arithmetic of the coordinate type. Only monotonicity is assumed (which IEEE round-to-nearest guarantees). `conv` is the
conversion to the unsigned grid type: `none` when the value is not representable (undefined behaviour of the conversion). -/
structure GridArith (F : Type) [LinearOrder F] where
  sub : F → F → F
  div : F → F → F
  ofNat : Nat → F
  conv : F → Option Nat
  /-- the scale factors by which a division is monotone (positive, not NaN) -/
  goodFact : F → Prop
  sub_mono : ∀ c a b, a ≤ b → sub a c ≤ sub b c
  div_mono : ∀ f a b, goodFact f → a ≤ b → div a f ≤ div b f
  conv_mono : ∀ a b x y, a ≤ b → conv a = some x → conv b = some y → x ≤ y
  conv_between : ∀ a b c, a ≤ b → b ≤ c → (conv a).isSome → (conv c).isSome → (conv b).isSome

/-- `MortonCodes<morton_t, 3>`, /repo/src/shammath/include/shammath/sfc/morton.hpp:44-163: number of bits per axis and encoder. -/
structure MCode (w : Nat) where
  bits : Nat
  enc : Nat → Nat → Nat → BitVec w

/-- `MortonCodes<u32, 3>`, morton.hpp:44-112. -/
def mcode32 : MCode 32 := ⟨10, fun x y z => morton32 ⟨BitVec.ofNat 32 x, BitVec.ofNat 32 y, BitVec.ofNat 32 z⟩⟩

/-- `MortonCodes<u64, 3>`, morton.hpp:115-183. -/
def mcode64 : MCode 64 := ⟨21, fun x y z => morton64 ⟨BitVec.ofNat 64 x, BitVec.ofNat 64 y, BitVec.ofNat 64 z⟩⟩

section
variable {F : Type} [LinearOrder F]

/-- One axis of `to_morton_grid(bb.clamp_coord(r), transform)`: `sycl::clamp`, /repo/src/shammath/include/shammath/AABB.hpp:320-322,
`reverse_transform` in multiply mode, CoordRangeTransform.hpp:115-118 (`source_coord_min` is 0), factor of the constructor,
/repo/src/shammath/src/CoordRangeTransform.cpp:131-148, 167-184, and the final clamp of morton.hpp:213-224. -/
def gridCoord (A : GridArith F) (bits : Nat) (lo hi p : F) : Option Nat :=
  (A.conv (A.div (A.sub (min (max p lo) hi) lo) (A.div (A.sub hi lo) (A.ofNat (2 ^ bits))))).map fun u => min (max u 0) (2 ^ bits - 1)

/-- The code of a position, /repo/src/shamtree/src/MortonCodeSet.cpp:94-98. -/
def mortonOf {w : Nat} (A : GridArith F) (C : MCode w) (lo hi p : V3 F) : Option (BitVec w) := do
  let x ← gridCoord A C.bits lo.x hi.x p.x
  let y ← gridCoord A C.bits lo.y hi.y p.y
  let z ← gridCoord A C.bits lo.z hi.z p.z
  pure (C.enc x y z)

/-- `morton_code_set_from_positions`, MortonCodeSet.cpp:62-118: codes of the objects, then `err_code` (all ones) up to `morton_count`.
Throws if `morton_count < cnt_obj` (:76-81) or if the bounding box is empty (`check_throw_ranges`, CoordRangeTransform.cpp:135-136). -/
def mortonCodeSet {w : Nat} (A : GridArith F) (C : MCode w) (lo hi : V3 F) (pos : List (V3 F)) (cntObj mortonCount : Nat) :
    Res (List (BitVec w)) :=
  if mortonCount < cntObj then .throws
  else if lo.x < hi.x ∧ lo.y < hi.y ∧ lo.z < hi.z then
    match (List.range cntObj).mapM fun i => (pos[i]?).bind (mortonOf A C lo hi) with
    | some l => .ok (l ++ List.replicate (mortonCount - cntObj) (BitVec.allOnes w))
    | none => .ub
  else .throws

/-- Everything the execution environment chooses: schedules of the kernels and contents of uninitialised or recycled buffers. -/
structure BVHEnv (F : Type) where
  sortSched : Nat → Nat → List Nat
  junk : List W32
  garbage : Nat → Nat
  order : List Nat
  schedMin : List (List Nat)
  schedMax : List (List Nat)
  oldMin : Nat → V3 F
  oldMax : Nat → V3 F

/-- `CompressedLeafBVH` after a build: `map_morton_id_to_obj_id`, `buf_reduc_index_map`, the radix tree and the two box buffers. -/
structure BVH (F : Type) where
  sortMap : List Nat
  redMap : List Nat
  nodes : List KNode
  bmin : List (V3 F)
  bmax : List (V3 F)

/-- `for (id_s = a; id_s < c; id_s++) func_it(sort_index_map[id_s])`: the list of the arguments of `func_it`. -/
def forSorted (sortMap : List Nat) (a c : Nat) : Option (List Nat) := (List.range' a (c - a)).mapM fun s => sortMap[s]?

/-- `for_each_in_leaf_cell`, /repo/src/shamtree/include/shamtree/LeafCellIterator.hpp:40-54. -/
def forEachInLeaf (sortMap redMap : List Nat) (cell : Nat) : Option (List Nat) := do
  let a ← redMap[cell]?
  let c ← redMap[cell + 1]?
  forSorted sortMap a c

/-- `for_each_in_cell`, /repo/src/shamtree/include/shamtree/CellIterator.hpp:45-72. -/
def forEachInCell (sortMap redMap : List Nat) (nodes : List KNode) (cell : Nat) : Option (List Nat) :=
  if nodes.length ≤ cell then do
    let a ← redMap[cell - nodes.length]?
    let c ← redMap[cell - nodes.length + 1]?
    forSorted sortMap a c
  else do
    let nd ← nodes[cell]?
    let a ← redMap[min cell nd.endRange]?
    let c ← redMap[max cell nd.endRange + 1]?
    forSorted sortMap a c

/-- Component-wise `sham::min`. -/
def vmin3 (a b : V3 F) : V3 F := ⟨min a.x b.x, min a.y b.y, min a.z b.z⟩
/-- Component-wise `sham::max`. -/
def vmax3 (a b : V3 F) : V3 F := ⟨max a.x b.x, max a.y b.y, max a.z b.z⟩

/-- Work item of the leaf kernel, one of the two accumulators, /repo/src/shamtree/src/KarrasRadixTreeAABB.cpp:123-134, 165-177. -/
def leafAcc (comb : V3 F → V3 F → V3 F) (init : V3 F) (pos : List (V3 F)) (ids : List Nat) : Option (V3 F) :=
  (ids.mapM fun i => pos[i]?).map (List.foldl comb init)

/-- One buffer of `compute_tree_aabb`, KarrasRadixTreeAABB.cpp:77-90: `prepare_karras_radix_tree_aabb` (:20-30, the contents of the
recycled buffer are `old`), the leaf kernel (:102-136 / :152-179, every item writes its own entry) and `propagate_aabb_up` (:33-74). An
interleaving of the work items of a launch on the two buffers is an interleaving on each of them; the two schedules are independent
here, which covers them all. -/
def aabbBuf (comb : V3 F → V3 F → V3 F) (init : V3 F) (pos : List (V3 F)) (sortMap redMap : List Nat) (nodes : List KNode)
    (scheds : List (List Nat)) (old : Nat → V3 F) : Option (List (V3 F)) := do
  let leaves ← (List.range (nodes.length + 1)).mapM fun k => (forEachInLeaf sortMap redMap k).bind (leafAcc comb init pos)
  propagateUp comb nodes scheds ((List.range nodes.length).map old ++ leaves)

/-- From the padded codes on: sort, reduction and radix tree. /repo/src/shamtree/src/CompressedLeafBVH.cpp:51-76, with `sort_morton_set`
(/repo/src/shamtree/src/MortonCodeSortedSet.cpp:23-49), `reduce_morton_set` on the first `cnt_obj` sorted codes
(/repo/src/shamtree/src/MortonReducedSet.cpp:33-75) and `karras_tree_from_morton_set`
(/repo/src/shamtree/src/KarrasRadixTree.cpp:152-180): sorted map, reduced map and radix tree. -/
def buildFromCodes {w : Nat} (env : BVHEnv F) (objCnt : BitVec 32) (codes : List (BitVec w)) (level : Nat) :
    Res (List Nat × List Nat × List KNode) :=
  match sortByKeyBitonic 16 (roundupPow2U32 objCnt) env.sortSched ((codes.map (·.toNat)).zipIdx) with
  | none => .ub
  | some .throws => .throws
  | some (.ok out) =>
    match reduceMortonSet objCnt.toNat (fun k => BitVec.ofNat w ((out[k]?.map (·.1)).getD 0)) level env.junk env.garbage env.order with
    | none => .ub
    | some (redMap, leafCnt, red) =>
      match karrasTree leafCnt (fun k => red[k]?.getD 0#w) with
      | none => .ub
      | some nodes => .ok (out.map (·.2), redMap, nodes)

/-- `internal_rebuild_from_positions_no_aabb`, /repo/src/shamtree/src/CompressedLeafBVH.cpp:31-76: codes of the positions, padded to a power of
two, then `buildFromCodes`. -/
def buildStruct {w : Nat} (A : GridArith F) (C : MCode w) (env : BVHEnv F) (pos : List (V3 F)) (objCnt : BitVec 32) (lo hi : V3 F)
    (level : Nat) : Res (List Nat × List Nat × List KNode) :=
  if objCnt = 0#32 then .throws
  else (mortonCodeSet A C lo hi pos objCnt.toNat (roundupPow2U32 objCnt).toNat).bind fun codes => buildFromCodes env objCnt codes level

/-- `rebuild_from_position_range`, CompressedLeafBVH.cpp:97-115; `rebuild_from_positions` (:78-95) is the case where both corners of an
object are its position. `big` is `VectorProperties::get_max()` and `small` its opposite. -/
def rebuildFromRanges {w : Nat} (A : GridArith F) (C : MCode w) (env : BVHEnv F) (big small : F) (pmin pmax : List (V3 F))
    (objCnt : BitVec 32) (lo hi : V3 F) (level : Nat) : Res (BVH F) :=
  (buildStruct A C env pmin objCnt lo hi level).bind fun (sortMap, redMap, nodes) =>
    match aabbBuf vmin3 ⟨big, big, big⟩ pmin sortMap redMap nodes env.schedMin env.oldMin,
        aabbBuf vmax3 ⟨small, small, small⟩ pmax sortMap redMap nodes env.schedMax env.oldMax with
    | some bmin, some bmax => .ok ⟨sortMap, redMap, nodes, bmin, bmax⟩
    | _, _ => .ub

/-- `rebuild_from_positions`, CompressedLeafBVH.cpp:78-95. -/
def rebuildFromPositions {w : Nat} (A : GridArith F) (C : MCode w) (env : BVHEnv F) (big small : F) (pos : List (V3 F))
    (objCnt : BitVec 32) (lo hi : V3 F) (level : Nat) : Res (BVH F) := rebuildFromRanges A C env big small pos pos objCnt lo hi level

/-- The traversal condition of `rtree_for`, /repo/src/shamtree/include/shamtree/CLBVHObjectIterator.hpp:130-133. A cell without a box
(read out of bounds) is rejected here: simplification; the box buffers have one entry per cell (`C52_build`). -/
def boxCond (t : BVH F) (accept : Nat → V3 F → V3 F → Bool) (id : Nat) : Bool :=
  match t.bmin[id]?, t.bmax[id]? with
  | some a, some b => accept id a b
  | _, _ => false

/-- `CLBVHObjectIteratorAccessed::rtree_for`, CLBVHObjectIterator.hpp:159-169 (with :99-138): the arguments of `on_found_object`, in
order. The stack has `significant_bits + 1` entries (:77). -/
def rtreeFor {w : Nat} (C : MCode w) (t : BVH F) (accept : Nat → V3 F → V3 F → Bool) : Option (List Nat) := do
  let ev ← stackTraversal (3 * C.bits + 1) t.nodes (boxCond t accept) 0 (2 * t.nodes.length + 2)
  let r ← ev.mapM fun
    | .found id => forEachInLeaf t.sortMap t.redMap (u32sub id t.nodes.length)
    | .excluded _ => some []
  pure r.flatten

end

end Shamrock
