import Verif.Model.DTT
/-! The neighbour cache of the SPH solver: direct search and two stage search. -/
namespace Shamrock

/-- Arithmetic of the coordinate type, arbitrary roundings: `htol` is `htol_up_coarse_cycle` and `rkern` is `Kernel::Rkern`. -/
structure SphArith (F : Type) where
  add : F → F → F
  sub : F → F → F
  mul : F → F → F
  htol : F
  rkern : F

section
variable {F : Type} [LinearOrder F]

/-- `v - s` of a vector and a scalar. -/
def SphArith.vsub (A : SphArith F) (v : V3 F) (s : F) : V3 F := ⟨A.sub v.x s, A.sub v.y s, A.sub v.z s⟩
/-- `v + s` of a vector and a scalar. -/
def SphArith.vadd (A : SphArith F) (v : V3 F) (s : F) : V3 F := ⟨A.add v.x s, A.add v.y s, A.add v.z s⟩

/-- `BBAA::cella_neigh_b`, /repo/src/shamtree/include/shamtree/kernels/geometry_utils.hpp:125-135. -/
def cellNeigh (amin amax bmin bmax : V3 F) : Bool :=
  max amin.x bmin.x ≤ min amax.x bmax.x && max amin.y bmin.y ≤ min amax.y bmax.y && max amin.z bmin.z ≤ min amax.z bmax.z

/-- `BBAA::is_coord_in_range_incl_max`, geometry_utils.hpp:74-81. -/
def inRangeIncl (p lo hi : V3 F) : Bool :=
  lo.x ≤ p.x && p.x ≤ hi.x && lo.y ≤ p.y && p.y ≤ hi.y && lo.z ≤ p.z && p.z ≤ hi.z

/-- `sph_radix_cell_crit`, /repo/src/shamtree/include/shamtree/RadixTree.hpp:801-816. -/
def sphCellCrit (A : SphArith F) (xa pmin pmax cmin cmax : V3 F) (sz : F) : Bool :=
  cellNeigh pmin pmax cmin cmax || cellNeigh xa xa (A.vsub cmin sz) (A.vadd cmax sz)

/-- `sycl::dot(dr, dr)` with `dr = xyz_a - xyz_b`, /repo/src/shammodels/sph/src/modules/NeighbourCache.cpp:117-118. The sum is done from
left to right here (simplification: the order of the additions in `sycl::dot` is left to the implementation). -/
def SphArith.dist2 (A : SphArith F) (xa xb : V3 F) : F :=
  A.add (A.add (A.mul (A.sub xa.x xb.x) (A.sub xa.x xb.x)) (A.mul (A.sub xa.y xb.y) (A.sub xa.y xb.y)))
    (A.mul (A.sub xa.z xb.z) (A.sub xa.z xb.z))

/-- `!no_interact` for squared distance `rab2` and radii `ra`, `rb`, NeighbourCache.cpp:86, 121-122. -/
def SphArith.interact (A : SphArith F) (rab2 ra rb : F) : Bool :=
  !(decide (A.mul (A.mul ra ra) (A.mul A.rkern A.rkern) < rab2) && decide (A.mul (A.mul rb rb) (A.mul A.rkern A.rkern) < rab2))

/-- `compute_tree_field_max_field` (/repo/src/shamtree/include/shamtree/KarrasRadixTreeField.hpp:189-222, with `compute_tree_field`
:170-186 and `propagate_field_up` :130-167), then the multiplication by the tolerance, /repo/src/shammodels/sph/src/Solver.cpp:1334-1353.
`small` is `get_min()`, `old` the contents of the new buffer. -/
def rintField (A : SphArith F) (small : F) (hpart : List F) (sortMap redMap : List Nat) (nodes : List KNode) (scheds : List (List Nat))
    (old : Nat → F) : Option (List F) := do
  let leaves ← (List.range (nodes.length + 1)).mapM fun k =>
    (forEachInLeaf sortMap redMap k).bind fun ids => (ids.mapM fun i => hpart[i]?).map (List.foldl max small)
  let f ← propagateUp max nodes scheds ((List.range nodes.length).map old ++ leaves)
  pure (f.map fun h => A.mul h A.htol)

/-- `ObjectCache`, /repo/src/shamtree/include/shamtree/TreeTraversal.hpp:341-352. -/
structure ObjCache where
  cnt : List W32
  scan : List W32
  sum : W32
  neigh : List Nat

/-- `prepare_object_cache` (TreeTraversal.hpp:456-485) on the counts of the runs, followed by a kernel in which item `i` stores its run
from `scanned_cnt[i]` on, in the order of execution `order`; the scan is taken to be the sequential one (C14). -/
def buildCache (junk : Nat → Nat) (order : List Nat) (runs : List (List Nat)) : Option ObjCache := do
  let counts := runs.map (fun r => BitVec.ofNat 32 r.length)
  let scan := exclSumFallback counts
  let last ← counts[runs.length - 1]?
  let ls ← scan[runs.length - 1]?
  let out ← scatterRuns scan runs order ((List.range (last + ls).toNat).map junk)
  pure ⟨counts, scan, last + ls, out⟩

/-- `ObjectCacheIterator::for_each_object`, TreeTraversal.hpp:503-513: the arguments of `func_it` in order. -/
def ObjCache.forEach (c : ObjCache) (idx : Nat) : Option (List Nat) := do
  let n ← c.cnt[idx]?
  let o ← c.scan[idx]?
  (List.range' o.toNat ((o + n).toNat - o.toNat)).mapM fun i => c.neigh[i]?

/-- The call `on_found_object(id_b)` for each object of a list, by particle `a`: the neighbours kept, in order, NeighbourCache.cpp:114-125,
181-195, 506-515, 567-579. -/
def keepNeigh (A : SphArith F) (xyz : List (V3 F)) (hpart : List F) (xa : V3 F) (ra : F) : List Nat → Option (List Nat)
  | [] => some []
  | b :: bs => do
    let xb ← xyz[b]?
    let hb ← hpart[b]?
    let r ← keepNeigh A xyz hpart xa ra bs
    pure (if A.interact (A.dist2 xa xb) ra (A.mul hb A.htol) then b :: r else r)

/-- Traversal condition of particle `a`, NeighbourCache.cpp:95-113. A radius read out of bounds rejects the cell (it does not happen, the
buffer has one entry per cell). -/
def sphAccept (A : SphArith F) (rint : List F) (xa : V3 F) (ra : F) (id : Nat) (cmin cmax : V3 F) : Bool :=
  match rint[id]? with
  | some h => sphCellCrit A xa (A.vsub xa (A.mul ra A.rkern)) (A.vadd xa (A.mul ra A.rkern)) cmin cmax (A.mul h A.rkern)
  | none => false

/-- Work item `a` of the two kernels of the direct search, NeighbourCache.cpp:88-128 (count) and 155-196 (fill): the second one stores what
the first one counts. -/
def directItem {w : Nat} (A : SphArith F) (C : MCode w) (t : BVH F) (rint : List F) (xyz : List (V3 F)) (hpart : List F) (a : Nat) :
    Option (List Nat) := do
  let ha ← hpart[a]?
  let xa ← xyz[a]?
  let ra := A.mul ha A.htol
  let found ← rtreeFor C t (sphAccept A rint xa ra)
  keepNeigh A xyz hpart xa ra found

/-- `build_neigh_cache` of the direct search, NeighbourCache.cpp:43-208, for the `n` particles of the patch. -/
def neighCacheDirect {w : Nat} (A : SphArith F) (C : MCode w) (t : BVH F) (rint : List F) (xyz : List (V3 F)) (hpart : List F) (n : Nat)
    (junk : Nat → Nat) (order : List Nat) : Option ObjCache := do
  let runs ← (List.range n).mapM (directItem A C t rint xyz hpart)
  buildCache junk order runs

/-- `CLBVHTraverserAccessed::rtree_for`, /repo/src/shamtree/include/shamtree/CLBVHObjectIterator.hpp:126-141: the cells given to
`on_found_leaf`, in order. -/
def rtreeLeaves {w : Nat} (C : MCode w) (t : BVH F) (accept : Nat → V3 F → V3 F → Bool) : Option (List Nat) := do
  let ev ← stackTraversal (3 * C.bits + 1) t.nodes (boxCond t accept) 0 (2 * t.nodes.length + 2)
  pure (ev.filterMap fun
    | .found id => some id
    | .excluded _ => none)

/-- Traversal condition of the leaf with box `lmin`, `lmax` and radius `r`, NeighbourCache.cpp:292-313. -/
def leafAccept (A : SphArith F) (rint : List F) (lmin lmax : V3 F) (r : F) (id : Nat) (cmin cmax : V3 F) : Bool :=
  match rint[id]? with
  | some h => cellNeigh lmin lmax (A.vsub cmin (A.mul h A.rkern)) (A.vadd cmax (A.mul h A.rkern)) ||
      cellNeigh (A.vsub lmin r) (A.vadd lmax r) cmin cmax
  | none => false

/-- Work item of leaf `k` of the leaf kernels, NeighbourCache.cpp:289-319 and 366-395. -/
def leafItem {w : Nat} (A : SphArith F) (C : MCode w) (t : BVH F) (rint : List F) (k : Nat) : Option (List Nat) := do
  let h ← rint[t.nodes.length + k]?
  let lmin ← t.bmin[t.nodes.length + k]?
  let lmax ← t.bmax[t.nodes.length + k]?
  rtreeLeaves C t (leafAccept A rint lmin lmax (A.mul h A.rkern))

/-- `leaf_part_id` of particle `a`, NeighbourCache.cpp:419-446: the last leaf found, `i32_max` if there is none. -/
def ownerItem {w : Nat} (C : MCode w) (t : BVH F) (xyz : List (V3 F)) (a : Nat) : Option Nat := do
  let ra ← xyz[a]?
  let found ← rtreeLeaves C t (fun _ lo hi => inRangeIncl ra lo hi)
  pure (found.foldl (fun _ leaf => u32sub leaf t.nodes.length) 2147483647)

/-- Work item `a` of the two last kernels, NeighbourCache.cpp:492-519 and 553-581. -/
def twoStageItem (A : SphArith F) (t : BVH F) (lc : ObjCache) (owner : List Nat) (xyz : List (V3 F)) (hpart : List F) (a : Nat) :
    Option (List Nat) := do
  let ha ← hpart[a]?
  let xa ← xyz[a]?
  let own ← owner[a]?
  let leaves ← lc.forEach own
  let objs ← leaves.mapM fun b => forEachInLeaf t.sortMap t.redMap (u32sub b t.nodes.length)
  keepNeigh A xyz hpart xa (A.mul ha A.htol) objs.flatten

/-- `build_neigh_cache` of the two stage search, NeighbourCache.cpp:237-592. -/
def neighCacheTwoStage {w : Nat} (A : SphArith F) (C : MCode w) (t : BVH F) (rint : List F) (xyz : List (V3 F)) (hpart : List F) (n : Nat)
    (junkL junk : Nat → Nat) (orderL order : List Nat) : Option ObjCache := do
  let lruns ← (List.range (t.nodes.length + 1)).mapM (leafItem A C t rint)
  let lc ← buildCache junkL orderL lruns
  let owner ← (List.range n).mapM (ownerItem C t xyz)
  let runs ← (List.range n).mapM (twoStageItem A t lc owner xyz hpart)
  buildCache junk order runs

end

end Shamrock
