import Verif.Model.Amr
import Verif.Model.BVH
import Verif.Model.Scan
/-! The neighbour graphs of the AMR solver: trees over the blocks, links between blocks, links between cells. Coordinates are `i64` in the code;
they are integers here (no overflow: simplification, the theorems ask for coordinates of less than 62 bits). -/
namespace Shamrock.Amr

/-- `AABB::get_intersect(..).is_volume_not_null()`, /repo/src/shammath/include/shammath/AABB.hpp:234-236, 272-274 (`sham::vec_compare_g`: every
component). -/
def volMeet (a b : Box) : Bool :=
  decide (max a.lo.x b.lo.x < min a.hi.x b.hi.x) && decide (max a.lo.y b.lo.y < min a.hi.y b.hi.y) && decide (max a.lo.z b.lo.z < min a.hi.z b.hi.z)

/-- `offset_check`, /repo/src/shammodels/common/include/shammodels/common/amr/NeighGraph.hpp:130-137. -/
def dirOffset : Nat → V3 Int
  | 0 => ⟨1, 0, 0⟩
  | 1 => ⟨-1, 0, 0⟩
  | 2 => ⟨0, 1, 0⟩
  | 3 => ⟨0, -1, 0⟩
  | 4 => ⟨0, 0, 1⟩
  | _ => ⟨0, 0, -1⟩

/-- `{lower + dir_offset, upper + dir_offset}`, FindBlockNeigh.cpp:53-54, BlockNeighToCellNeigh.cpp:105-106. -/
def shiftBox (b : Box) (d : V3 Int) : Box :=
  ⟨⟨b.lo.x + d.x, b.lo.y + d.y, b.lo.z + d.z⟩, ⟨b.hi.x + d.x, b.hi.y + d.y, b.hi.z + d.z⟩⟩

/-! ### The tree over the blocks -/

/-- `shambase::roundup_pow2` on `i64`, /repo/src/shambase/include/shambase/integer.hpp:92-118: for a positive value the signed shifts are the
unsigned ones. -/
def i64RoundupPow2 (v : Int) : Int := (roundupPow2U64 (BitVec.ofInt 64 v)).toInt

/-- The box of the tree, /repo/src/shammodels/ramses/src/modules/NodeBuildTrees.cpp:172-194: smallest box around the blocks, extents rounded up to a
power of two. -/
def treeBox (bs : List Box) : Option Box :=
  match bs with
  | [] => none
  | b :: r =>
    let lo := r.foldl (fun m c => vmin3 m c.lo) b.lo
    let hi := r.foldl (fun m c => vmax3 m c.hi) b.hi
    some ⟨lo, ⟨lo.x + i64RoundupPow2 (hi.x - lo.x), lo.y + i64RoundupPow2 (hi.y - lo.y), lo.z + i64RoundupPow2 (hi.z - lo.z)⟩⟩

/-- `TreeStructure::build_one_cell_mode`, /repo/src/shamtree/src/TreeStructure.cpp:55-78. -/
def oneCell : List KNode := [⟨1, 0, true, 1, true⟩]

/-- The constructor of `RadixTree`, /repo/src/shamtree/src/RadixTree.cpp:70-103, for `i64_3` positions and `u64` codes:
`RadixTreeMortonBuilder::build` (/repo/src/shamtree/src/RadixTreeMortonBuilder.cpp:68-107), `TreeReducedMortonCodes::build`
(/repo/src/shamtree/src/TreeReducedMortonCodes.cpp:23-83), `TreeStructure::build` (TreeStructure.cpp:25-52). The kernels are those of
`CompressedLeafBVH` (`reduction_alg.cpp`, `karras_alg.cpp:24-117`), except that a tree of one leaf gets a second, empty one (the last range of the index
map, `[n, 0)`, is inverted). `roundup_pow2_clz` and `roundup_pow2` agree here (C29). The build does not succeed without objects. -/
def radixStruct (env : BVHEnv Int) (box : Box) (pos : List (V3 Int)) (level : Nat) : Res (List Nat × List Nat × List KNode) :=
  if pos.length = 0 ∨ 2147483646 < pos.length then .throws
  else match pos.mapM (blockCode box) with
    | none => .throws
    | some codes =>
      let cnt := BitVec.ofNat 32 pos.length
      (buildFromCodes env cnt (codes.map (BitVec.ofNat 64) ++ List.replicate ((roundupPow2U32 cnt).toNat - pos.length) (BitVec.allOnes 64)) level).bind
        fun (sortMap, redMap, nodes) => .ok (sortMap, redMap, if nodes.length = 0 then oneCell else nodes)

/-- `NodeBuildTrees` on one merged patch, NodeBuildTrees.cpp:181-219, with `__internal_correct_tree_bb` (:25-154): leaf boxes, `tree_depth` upward sweeps,
copy into the tree. The boxes computed before from the codes (`compute_cell_ibounding_box`, `convert_bounding_box`) are overwritten: not modelled. -/
def buildTree (env : BVHEnv Int) (bs : List Box) (level : Nat) : Res (BVH Int) :=
  match treeBox bs with
  | none => .throws
  | some box => (radixStruct env box (bs.map (·.lo)) level).bind fun (sortMap, redMap, nodes) =>
    match aabbBuf vmin3 ⟨9223372036854775807, 9223372036854775807, 9223372036854775807⟩ (bs.map (·.lo)) sortMap redMap nodes env.schedMin env.oldMin,
        aabbBuf vmax3 ⟨-9223372036854775808, -9223372036854775808, -9223372036854775808⟩ (bs.map (·.hi)) sortMap redMap nodes env.schedMax env.oldMax with
    | some bmin, some bmax => .ok ⟨sortMap, redMap, nodes, bmin, bmax⟩
    | _, _ => .ub

/-! ### Graphs -/

/-- `NeighGraph`, NeighGraph.hpp:32-38. -/
structure NGraph where
  offset : List W32
  links : List Nat
  count : W32
  objs : Nat
  ante : List Nat

/-- `for (id_s = offset[id]; id_s < offset[id + 1]; ...)`, NeighGraph.hpp:68-74: the arguments of `func_it`, in order. -/
def NGraph.forEach (g : NGraph) (id : Nat) : Option (List Nat) := do
  let a ← g.offset[id]?
  let b ← g.offset[id + 1]?
  (List.range' a.toNat (b.toNat - a.toNat)).mapM fun s => g.links[s]?

/-- Keep the elements on which the test holds. -/
def keepIf (p : Nat → Option Bool) : List Nat → Option (List Nat)
  | [] => some []
  | b :: r => do
    let k ← p b
    let s ← keepIf p r
    pure (if k then b :: s else s)

/-- Write one entry of the shared buffer. -/
def putStep {α : Type} (i : Nat) (v : α) : KStep Unit α := fun l m => if i < m.length then some (l, m.set i v) else none

/-- Work item of the second kernel, /repo/src/shammodels/ramses/include/shammodels/ramses/modules/details/compute_neigh_graph.hpp:89-98, 173-182: link
number `k` found goes to `next_link_idx`, which started at `cnt_offsets[id_a]` and was incremented `k` times (u32). The search is done again and finds the
same objects (its inputs do not change). -/
def fillItem (off : List W32) (runs : List (List Nat)) (a : Nat) : List (KStep Unit Nat) :=
  match off[a]?, runs[a]? with
  | some o, some r => r.zipIdx.map fun (b, k) => putStep (o + BitVec.ofNat 32 k).toNat b
  | _, _ => [fun _ _ => none]

/-- `compute_neigh_graph`, compute_neigh_graph.hpp:41-112, and `compute_neigh_graph_deprecated`, :128-195: the counts, their scan (C14: the sequential one,
`n + 1` entries), the links. `junk` is the new buffer, `sched` the schedule of the second kernel. In the first kernel every item writes its own entry. -/
def neighGraph (junk : Nat → Nat) (sched : List Nat) (n : Nat) (item : Nat → Option (List Nat)) : Option NGraph := do
  let runs ← (List.range n).mapM item
  let off := exclSumFallback (runs.map (fun r => BitVec.ofNat 32 r.length) ++ [0])
  let total ← off[n]?
  let links ← kLaunch n (fillItem off runs) () sched ((List.range total.toNat).map junk)
  pure ⟨off, links, total, n, []⟩

/-- Work item of `compute_antecedent`, NeighGraph.hpp:51-57. -/
def anteItem (g : NGraph) (gid : Nat) : List (KStep Unit Nat) :=
  match g.offset[gid]?, g.offset[gid + 1]? with
  | some a, some b => (List.range' a.toNat (b.toNat - a.toNat)).map fun s => putStep s gid
  | _, _ => [fun _ _ => none]

/-- `compute_antecedent`, NeighGraph.hpp:40-60. -/
def antecedent (junk : Nat → Nat) (sched : List Nat) (g : NGraph) : Option NGraph := do
  let a ← kLaunch g.objs (anteItem g) () sched ((List.range g.count.toNat).map junk)
  pure { g with ante := a }

/-- `AMRBlockFinder::for_each_other_index`, /repo/src/shammodels/ramses/src/modules/FindBlockNeigh.cpp:47-73, with `ObjectIterator::rtree_for`
(/repo/src/shamtree/include/shamtree/TreeTraversal.hpp:73-124; a stack of `tree_depth` = 64 entries). -/
def blockItem (bs : List Box) (t : BVH Int) (dir a : Nat) : Option (List Nat) := do
  let A ← bs[a]?
  let found ← rtreeFor mcode64 t fun _ lo hi => volMeet ⟨lo, hi⟩ (shiftBox A (dirOffset dir))
  keepIf (fun b => (bs[b]?).map fun B => volMeet B (shiftBox A (dirOffset dir)) && decide (b ≠ a)) found

/-- `FindBlockNeigh` in one direction, FindBlockNeigh.cpp:105-123. -/
def blockGraph (junk : Nat → Nat) (sched : List Nat) (bs : List Box) (t : BVH Int) (dir : Nat) : Option NGraph :=
  neighGraph junk sched bs.length (blockItem bs t dir)

/-- The cell `(x, y, z)` of a block, `block_min + {x, y, z} * delta_cell`, /repo/src/shammodels/ramses/src/modules/BlockNeighToCellNeigh.cpp:91, 101-103,
119, 125-129 (`delta_cell = (max - min) / 2`, truncated). -/
def cellBox (b : Box) (x y z : Int) : Box :=
  let dx := (b.hi.x - b.lo.x).tdiv 2
  let dy := (b.hi.y - b.lo.y).tdiv 2
  let dz := (b.hi.z - b.lo.z).tdiv 2
  ⟨⟨b.lo.x + x * dx, b.lo.y + y * dy, b.lo.z + z * dz⟩, ⟨b.lo.x + (x + 1) * dx, b.lo.y + (y + 1) * dy, b.lo.z + (z + 1) * dz⟩⟩

/-- The cell of local index `i`, `AMRBlock::get_coord` (/repo/src/shammodels/common/include/shammodels/common/amr/AMRBlock.hpp:98-107: x fastest). -/
def cellOf (b : Box) (i : Nat) : Box := cellBox b (coordX i).1 (coordX i).2.1 (coordX i).2.2

/-- The cells of block `B` (number `b`) met by the loops of BlockNeighToCellNeigh.cpp:121-143. -/
def cellsMet (B : Box) (b : Nat) (check : Box) (c : Nat) : List Nat :=
  (List.range 2).flatMap fun (lx : Nat) => (List.range 2).flatMap fun (ly : Nat) => (List.range 2).flatMap fun (lz : Nat) =>
    if volMeet (cellBox B lx ly lz) check && decide (c ≠ b * 8 + getIndex lx ly lz) then [b * 8 + getIndex lx ly lz] else []

/-- `AMRLowering::for_each_other_index`, BlockNeighToCellNeigh.cpp:266-272 with `for_each_other_index_safe` :81-145. -/
def cellItem (bs : List Box) (g : NGraph) (dir c : Nat) : Option (List Nat) := do
  let A ← bs[c / 8]?
  let linked ← g.forEach (c / 8)
  let r ← (c / 8 :: linked).mapM fun b => (bs[b]?).map fun B => cellsMet B b (shiftBox (cellOf A (c % 8)) (dirOffset dir)) c
  pure r.flatten

/-- `BlockNeighToCellNeigh` in one direction, BlockNeighToCellNeigh.cpp:302-336, with the antecedents. -/
def cellGraph (junk : Nat → Nat) (sched : List Nat) (junk2 : Nat → Nat) (sched2 : List Nat) (bs : List Box) (g : NGraph) (dir : Nat) : Option NGraph := do
  let r ← neighGraph junk sched (bs.length * 8) (cellItem bs g dir)
  antecedent junk2 sched2 r

end Shamrock.Amr
