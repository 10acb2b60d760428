import Verif.Model.SerialTree
import Verif.Model.SparseComm
import Verif.Model.Field
/-! Moving objects to the patch containing them: /repo/src/shamrock/include/shamrock/scheduler/ReattributeDataUtility.hpp. -/
namespace Shamrock

/-- The patch data of one rank: `SchedulerPatchData::owned_data`, a `DistributedData<PatchDataLayer>` (a `std::map`, iterated by increasing id),
/repo/src/shamrock/include/shamrock/scheduler/SchedulerPatchData.hpp:62-66. -/
abbrev RankData (α : Type) := List (Nat × PLayer α)

/-- `PatchDataLayer::get_obj_cnt`, /repo/src/shamrock/src/patch/PatchDataLayer.cpp:333-345. -/
def PLayer.objCnt {α : Type} : PLayer α → Res Nat
  | [] => .throws
  | f :: _ => f.objCnt

/-- `PatchDataLayer(layout)`: an empty layer; `lay` is the number of values per object of the fields of the layout. -/
def PLayer.empty {α : Type} (lay : List Nat) : PLayer α := lay.map fun n => ⟨n, []⟩

/-- `PatchDataLayer::keep_ids` = `index_remap_resize` on all fields, PatchDataLayer.cpp:190-208. `order k` is the execution order of the kernel of
field `k`. An empty index buffer is a valid empty buffer. -/
def PLayer.keepIds {α : Type} (garbage : Nat → α) (order : Nat → Nat → List Nat) (idxs : List Nat) : Nat → PLayer α → Res (PLayer α)
  | _, [] => .ok []
  | k, f :: r => (f.indexRemapResize garbage (order k) idxs idxs.length).bind fun f' =>
    (PLayer.keepIds garbage order idxs (k + 1) r).bind fun r' => .ok (f' :: r')

/-- `compute_patch_owner` on a list of positions (every work item writes its own entry), ReattributeDataUtility.hpp:80-83. -/
def ownerList {α F : Type} (owner : V3 F → Res Nat) (pos : α → V3 F) : List α → Res (List Nat)
  | [] => .ok []
  | v :: vs => (owner (pos v)).bind fun q => (ownerList owner pos vs).bind fun qs => .ok (q :: qs)

/-- The body of the loop of `compute_new_pid` for a non empty patch data, lines 70-97. -/
def newPids {α F : Type} (owner : V3 F → Res Nat) (pos : α → V3 F) (ipos : Nat) (l : PLayer α) : Res (List Nat) :=
  match l[ipos]? with
  | none => .ub
  | some f =>
    if f.nvar ≠ 1 then .throws
    else f.objCnt.bind fun n => (ownerList owner pos (f.buf.take n)).bind fun ids => if ids.any (fun q => q == u64max) then .throws else .ok ids

/-- `compute_new_pid`, lines 62-102. The ids are the keys of a map, so `add_obj` never meets an existing key: the result is built by appending. -/
def computeNewPid {α F : Type} (owner : V3 F → Res Nat) (pos : α → V3 F) (ipos : Nat) : RankData α → Res (List (Nat × List Nat))
  | [] => .ok []
  | (id, l) :: d => l.objCnt.bind fun n =>
    if n ≠ 0 then (newPids owner pos ipos l).bind fun ids => (computeNewPid owner pos ipos d).bind fun r => .ok ((id, ids) :: r)
    else computeNewPid owner pos ipos d

/-- `extract_indexes[new_pid].push_back(i)`, line 165. -/
def grpPush : List (Nat × List Nat) → Nat → Nat → List (Nat × List Nat)
  | [], p, i => [(p, [i])]
  | (q, v) :: r, p, i => if q = p then (q, v ++ [i]) :: r else (q, v) :: grpPush r p i

/-- The loop over the objects, lines 161-170. -/
def partLoop (cur : Nat) : List Nat → Nat → List Nat → List (Nat × List Nat) → List Nat × List (Nat × List Nat)
  | [], _, keep, ex => (keep, ex)
  | p :: ps, i, keep, ex => if cur ≠ p then partLoop cur ps (i + 1) keep (grpPush ex p i) else partLoop cur ps (i + 1) (keep ++ [i]) ex

/-- `part_exchange.for_each` restricted to one key, lines 184-189. -/
def ddsForKey {T : Type} (key : Nat × Nat) (f : T → Res T) : List ((Nat × Nat) × T) → Res (List ((Nat × Nat) × T))
  | [] => .ok []
  | (k, x) :: r => (if k = key then f x else .ok x).bind fun x' => (ddsForKey key f r).bind fun r' => .ok ((k, x') :: r')

/-- The loop over `extract_indexes`, lines 172-190. `order q` is the schedule of the copies towards patch `q`. -/
def sendLoop {α : Type} (garbage : Nat → α) (order : Nat → Nat → Nat → List Nat) (lay : List Nat) (cur : Nat) (l : PLayer α) :
    List (Nat × List Nat) → List ((Nat × Nat) × PLayer α) → Res (List ((Nat × Nat) × PLayer α))
  | [], ex => .ok ex
  | (q, v) :: r, ex =>
    let ex1 := if ddsHasKey ex cur q then ex else ddsAddObj ex cur q (PLayer.empty lay)
    (ddsForKey (cur, q) (fun out => l.appendSubset garbage (order q) v out) ex1).bind fun ex2 => sendLoop garbage order lay cur l r ex2

/-- `extract_elements`, lines 116-203. `perm cur` is the order in which the unordered map `extract_indexes` of patch `cur` is iterated, `order cur q`
the schedule of the kernels moving objects from `cur` to `q` (for `q = cur`: those of `keep_ids`). -/
def extractAll {α : Type} (garbage : Nat → α) (order : Nat → Nat → Nat → Nat → List Nat) (perm : Nat → List (Nat × List Nat) → List (Nat × List Nat))
    (lay : List Nat) (nids : List (Nat × List Nat)) : RankData α → List ((Nat × Nat) × PLayer α) → Res (RankData α × List ((Nat × Nat) × PLayer α))
  | [], ex => .ok ([], ex)
  | (cur, l) :: d, ex => l.objCnt.bind fun n =>
    if n ≠ 0 then
      match mfind nids cur with
      | none => .throws
      | some nid =>
        let p := partLoop cur (nid.take n) 0 [] []
        (sendLoop garbage (order cur) lay cur l (perm cur p.2) ex).bind fun ex1 =>
        (PLayer.keepIds garbage (order cur cur) p.1 0 l).bind fun l1 =>
        (extractAll garbage order perm lay nids d ex1).bind fun r => .ok ((cur, l1) :: r.1, r.2)
    else (extractAll garbage order perm lay nids d ex).bind fun r => .ok ((cur, l) :: r.1, r.2)

/-- `sched.patch_data.get_pdat(receiver).insert_elements(pdat)`, line 261 (`DistributedData::get` throws for a missing id). -/
def insertInto {α : Type} (p : PLayer α) (q : Nat) : RankData α → Res (RankData α)
  | [] => .throws
  | (id, l) :: d => if id = q then (l.insertElements p).bind fun l' => .ok ((id, l') :: d) else (insertInto p q d).bind fun d' => .ok ((id, l) :: d')

/-- The last loop of `reatribute_patch_objects`, lines 259-262. -/
def insertRecv {α : Type} : List ((Nat × Nat) × PLayer α) → RankData α → Res (RankData α)
  | [], d => .ok d
  | (k, p) :: r, d => (insertInto p k.2 d).bind fun d' => insertRecv r d'

end Shamrock
