import Verif.Model.Patch
import Verif.Model.Res
import Verif.Model.Float
/-! Load balancing: /repo/src/shamrock/include/shamrock/scheduler/loadbalance/LoadBalanceStrategy.hpp and
/repo/src/shamrock/src/scheduler/HilbertLoadBalance.cpp. Loads are `u64`, ranks `i32` (as `Nat`; negative values never occur, an
out of range rank is undefined behaviour), doubles are rationals rounded by an arbitrary rounding `R` (all values are 0 or in
`[2^-31, 2^65]`, far inside the normal range). Logging is left out. -/
namespace Shamrock

/-- `TileWithLoad`, LoadBalanceStrategy.hpp:27-31. -/
structure LBTile where
  ord : Nat
  load : Nat
deriving DecidableEq, Repr

/-- `std::sort` with the comparator of `apply_ordering`, LoadBalanceStrategy.hpp:57-63, by its specification: any permutation sorted by
`ordering_val` (the order of equal keys is not specified). A tile carries its original index, LoadBalanceStrategy.hpp:81-85. -/
structure SortImpl where
  run : List (LBTile × Nat) → List (LBTile × Nat)
  perm : ∀ l, (run l).Perm l
  sorted : ∀ l, (run l).Pairwise (fun a b => a.1.ord ≤ b.1.ord)

/-- The accumulation loops, LoadBalanceStrategy.hpp:91-96 (`inc` = load) and 160-166 (`inc` = 1): each tile gets the sum of the
increments before it, in `u64`. -/
def lbAccum (inc : LBTile → Nat) : List (LBTile × Nat) → Nat → List ((LBTile × Nat) × Nat)
  | [], _ => []
  | t :: ts, a => (t, a) :: lbAccum inc ts (u64add a (inc t.1))

/-- Conversion of a non negative `double` to `i32`: truncation, undefined when the value does not fit. -/
def f64ToI32 (x : ℚ) : Res Nat := if ⌊x⌋.toNat < 2 ^ 31 then .ok ⌊x⌋.toNat else .ub

/-- The owner of one tile, LoadBalanceStrategy.hpp:103-107 and 173-177. -/
def lbOwner (R : F64Rnd) (target : ℚ) (w acc : Nat) : Res Nat :=
  if target = 0 then .ok 0 else (f64ToI32 (R.fl (R.fl acc / target))).bind fun v => .ok (min v (w - 1))

/-- Owners of all the tiles (the `omp parallel for` loop 100-108; its iterations are independent). -/
def lbOwners (R : F64Rnd) (target : ℚ) (w : Nat) : List ((LBTile × Nat) × Nat) → Res (List (Nat × Nat))
  | [] => .ok []
  | r :: rs => (lbOwner R target w r.2).bind fun o => (lbOwners R target w rs).bind fun os => .ok ((r.1.2, o) :: os)

/-- `new_owners[tile.index] = tile.new_owner`, LoadBalanceStrategy.hpp:126-129. -/
def lbScatter (n : Nat) (os : List (Nat × Nat)) : List Nat := os.foldl (fun tab io => tab.set io.1 io.2) (List.replicate n 0)

/-- `double(res[res.size() - 1].accumulated_load_value) / wsize`, LoadBalanceStrategy.hpp:98 and 168. -/
def lbTarget (R : F64Rnd) (w last : Nat) : ℚ := R.fl (R.fl last / w)

/-- `lb_startegy_parallel_sweep` (`inc` = load, LoadBalanceStrategy.hpp:74-132) and `lb_startegy_roundrobin` (`inc` = 1, 143-202). On an
empty list `res[res.size() - 1]` is out of bounds. -/
def lbStrategy (R : F64Rnd) (S : SortImpl) (inc : LBTile → Nat) (w : Nat) (tiles : List LBTile) : Res (List Nat) :=
  match (lbAccum inc (S.run tiles.zipIdx) 0).getLast? with
  | none => .ub
  | some l => (lbOwners R (lbTarget R w l.2) w (lbAccum inc (S.run tiles.zipIdx) 0)).bind fun os => .ok (lbScatter tiles.length os)

def lbSweep (R : F64Rnd) (S : SortImpl) (w : Nat) (tiles : List LBTile) : Res (List Nat) := lbStrategy R S LBTile.load w tiles
def lbRoundRobin (R : F64Rnd) (S : SortImpl) (w : Nat) (tiles : List LBTile) : Res (List Nat) := lbStrategy R S (fun _ => 1) w tiles

/-- `load_per_node[new_owners[i]] += lb_vector[i].load_value`, LoadBalanceStrategy.hpp:228-232. -/
def lbLoads : List (LBTile × Nat) → List Nat → Res (List Nat)
  | [], tab => .ok tab
  | (t, o) :: r, tab => match tab[o]? with
    | none => .ub
    | some v => lbLoads r (tab.set o (u64add v t.load))

/-- `max` of `compute_LB_metric` before weighting, LoadBalanceStrategy.hpp:235-246. The loop starts from minus infinity; there is at least
one rank and loads are non negative, so starting from 0 gives the same maximum. -/
def lbMax (R : F64Rnd) (loads : List Nat) : ℚ := loads.foldl (fun (m : ℚ) (v : Nat) => max m (R.fl v)) 0

/-- `load_balance`, LoadBalanceStrategy.hpp:273-313: the weight of the sweep is 1 (exact), that of the round robin the double 0.95. -/
def loadBalance (R : F64Rnd) (S : SortImpl) (w : Nat) (tiles : List LBTile) : Res (List Nat) :=
  (lbSweep R S w tiles).bind fun ps =>
  (lbLoads (tiles.zip ps) (List.replicate w 0)).bind fun l1 =>
  (lbRoundRobin R S w tiles).bind fun rr =>
  (lbLoads (tiles.zip rr) (List.replicate w 0)).bind fun l2 =>
  if R.fl (lbMax R l2 * R.fl (19 / 20)) < lbMax R l1 then .ok rr else .ok ps

/-- One iteration of `apply_node_patch_packing`, HilbertLoadBalance.cpp:34-36. -/
def nodePackStep (ps : List Patch) (tab : List Nat) (i : Nat) : Res (List Nat) :=
  match ps[i]? with
  | none => .ub
  | some p => if p.packNodeIndex = u64max then .ok tab else
    match tab[p.packNodeIndex]? with
    | none => .ub
    | some o => .ok (tab.set i o)

/-- `apply_node_patch_packing`, HilbertLoadBalance.cpp:26-38: an `omp parallel for`, whose iterations run in any order `order`. -/
def applyPacking (ps : List Patch) : List Nat → List Nat → Res (List Nat)
  | [], tab => .ok tab
  | i :: order, tab => (nodePackStep ps tab i).bind fun tab => applyPacking ps order tab

/-- `LoadBalancingChangeList::ChangeOp`, /repo/src/shamrock/include/shamrock/scheduler/HilbertLoadBalance.hpp:26-36. -/
structure ChangeOp where
  patchId : Nat
  patchIdx : Nat
  ownerOld : Nat
  ownerNew : Nat
  tag : Nat
deriving DecidableEq, Repr

/-- The loop of `make_change_list`, HilbertLoadBalance.cpp:86-109: `tags` is `tags_it_node`. The load statistics (108-156) only index
`load_per_node[new_owner]`, undefined for a rank outside the world. An old owner outside the world indexes `tags_it_node` out of bounds. -/
def changeOps (w : Nat) : List (Patch × Nat) → Nat → List Nat → Res (List ChangeOp)
  | [], _, _ => .ok []
  | (p, new) :: r, i, tags =>
    if w ≤ new then .ub
    else if new = p.nodeOwnerId then changeOps w r (i + 1) tags
    else match tags[p.nodeOwnerId]? with
      | none => .ub
      | some t => (changeOps w r (i + 1) (tags.set p.nodeOwnerId (t + 1))).bind fun ops =>
          .ok (⟨p.idPatch, i, p.nodeOwnerId, new, t⟩ :: ops)

/-- The tiles given to the balancer, HilbertLoadBalance.cpp:64-74; `hilb` is `SFC::icoord_to_hilbert`. -/
def patchTiles (hilb : V3 Nat → Nat) (ps : List Patch) : List LBTile := ps.map fun p => ⟨hilb p.coord.cmin, p.loadValue⟩

/-- `HilbertLoadBalance::make_change_list`, HilbertLoadBalance.cpp:49-160. -/
def makeChangeList (R : F64Rnd) (S : SortImpl) (hilb : V3 Nat → Nat) (w : Nat) (order : List Nat) (ps : List Patch) :
    Res (List ChangeOp) :=
  (loadBalance R S w (patchTiles hilb ps)).bind fun bal =>
  (applyPacking ps order bal).bind fun own => changeOps w (ps.zip own) 0 (List.replicate w 0)

end Shamrock
