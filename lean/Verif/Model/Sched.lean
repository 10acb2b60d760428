import Verif.Model.PatchTree
import Verif.Model.Push
import Verif.Model.ChangeList
/-! `PatchScheduler::scheduler_step` and what it calls: /repo/src/shamrock/src/scheduler/PatchScheduler.cpp:101-165, 308-499, 701-834,
/repo/src/shamrock/src/scheduler/scheduler_patch_list.cpp and /repo/src/shamrock/src/scheduler/SchedulerPatchData.cpp:248-425.

The patch tree, the global patch list and `_next_patch_id` are replicated on all ranks: every rank executes the same code on the same values, so the model
keeps one copy (the iteration orders of the `std::unordered_set`s, which are parameters here, are the same on all ranks: same library, same history of
insertions). The patch data, the local list and `owned_patch_id` are per rank, as functions of the rank. A throw on one rank is a throw of the step.
`_next_patch_id` is a natural number (2^64 patches are never created). -/
namespace Shamrock

/-- The state of the scheduler on all ranks: /repo/src/shamrock/include/shamrock/scheduler/PatchScheduler.hpp:94-110 and scheduler_patch_list.hpp:36-60. -/
structure Sched (α : Type) where
  tree : PTree
  global : List Patch
  nextPid : Nat
  /-- `is_load_values_up_to_date` -/
  fresh : Bool
  locals : Nat → List Patch
  /-- `owned_patch_id` (the list is an iteration order of the set) -/
  owned : Nat → List Nat
  data : Nat → RankData α

/-- `id_patch_to_global_idx[id]` after `build_global_idx_map`, scheduler_patch_list.cpp:80-89: the last index with this id; `operator[]` gives 0 for an
unknown id. (Also `build_local_idx_map`, 91-100.) -/
def gidx (g : List Patch) (id : Nat) : Nat := g.zipIdx.foldl (fun i p => if p.1.idPatch = id then p.2 else i) 0

/-- `plist[id_patch_to_global_idx.at(id)].load_value`, PatchTree.cpp:247-248 (`at` throws for an unknown id: `none`). -/
def loadsOf (g : List Patch) (id : Nat) : Option Nat := if g.any (fun p => p.idPatch == id) then (g[gidx g id]?).map (·.loadValue) else none

/-- `patch_list.global[idx]` for eight indexes. -/
def patchesAt (g : List Patch) : List Nat → Res (List Patch)
  | [] => .ok []
  | i :: is => match g[i]? with
    | none => .ub
    | some p => (patchesAt g is).bind fun r => .ok (p :: r)

/-- Gives the ids `next`, `next+1`, … to patches (`splts[k].id_patch = _next_patch_id++`, scheduler_patch_list.cpp:119-132). -/
def giveIds : Nat → List Patch → List Patch
  | _, [] => []
  | n, p :: ps => { p with idPatch := n } :: giveIds (n + 1) ps

/-- `SchedulerPatchList::split_patch`, scheduler_patch_list.cpp:109-158: (the list, `_next_patch_id`, the eight indexes). `im` is
`id_patch_to_global_idx`. -/
def listSplit (im : Nat → Nat) (g : List Patch) (next id : Nat) : Res (List Patch × Nat × List Nat) :=
  match g[im id]? with
  | none => .ub
  | some p0 => match p0.getSplit with
    | [] => .ub
    | s0 :: r => .ok (g.set (im id) s0 ++ giveIds next r, next + r.length, im id :: List.range' g.length r.length)

/-- `patch_tree.tree[child].linked_patchid = …`, PatchScheduler.cpp:717-732. -/
def linkAll : List (Nat × Nat) → PTree → Res PTree
  | [], t => .ok t
  | (c, pid) :: r, t => (t.setLinked c pid).bind fun t' => linkAll r t'

/-- `owned_data.add_obj` for each pair (SchedulerPatchData.cpp:349-356 and 424); it throws if the id is present. -/
def addAll {D : Type} : List (Nat × D) → List (Nat × D) → Res (List (Nat × D))
  | [], m => .ok m
  | (k, d) :: r, m => match ddAddObj m k d with
    | (m', some ()) => addAll r m'
    | (_, none) => .throws

/-- The constants of a run: `lay` the layout, `pos` reads a position out of a value of the main field, `box` is `patch_coord_to_domain`, `garbage` and
`order` the unspecified values and schedules of the kernels. -/
structure SchedEnv (α F : Type) where
  lay : List Nat
  pos : α → V3 F
  box : PatchCoord → V3 F × V3 F
  garbage : Nat → α
  order : Nat → Nat → Nat → Nat → List Nat
  critSplit : Nat
  critMerge : Nat

/-- `SchedulerPatchData::split_patchdata` on one rank, SchedulerPatchData.cpp:248-358 (the main field has one of the five supported types). -/
def pdSplit {α F : Type} [LinearOrder F] (env : SchedEnv α F) (key : Nat) (ps : List Patch) (d : RankData α) : Res (RankData α) :=
  match mfind d key with
  | none => .ok d
  | some l =>
    (l.splitPatchdata env.pos env.garbage (env.order key) (List.replicate 8 (PLayer.empty env.lay)) (ps.map fun p => env.box p.coord)).bind fun outs =>
    addAll ((ps.map (·.idPatch)).zip outs) (ddErase d key)

/-- The eight searches of `merge_patchdata`, SchedulerPatchData.cpp:362-402. -/
def findAll {D : Type} (d : List (Nat × D)) : List Nat → Res (List D)
  | [] => .ok []
  | k :: ks => match mfind d k with
    | none => .throws
    | some x => (findAll d ks).bind fun r => .ok (x :: r)

/-- `new_pdat.insert_elements(search_k->second)`, SchedulerPatchData.cpp:406-413. -/
def insertAllInto {α : Type} : List (PLayer α) → PLayer α → Res (PLayer α)
  | [], l => .ok l
  | x :: xs, l => (l.insertElements x).bind fun l' => insertAllInto xs l'

/-- `SchedulerPatchData::merge_patchdata` on one rank, SchedulerPatchData.cpp:360-425. -/
def pdMerge {α : Type} (lay : List Nat) (newKey : Nat) (keys : List Nat) (d : RankData α) : Res (RankData α) :=
  (findAll d keys).bind fun ls =>
  (insertAllInto ls (PLayer.empty lay)).bind fun l =>
  addAll [(newKey, l)] (keys.foldl ddErase d)

/-- The ranks `0 … W-1` execute `f` on their data. -/
def allRanks {D : Type} (f : Nat → D → Res D) : Nat → (Nat → D) → Res (Nat → D)
  | 0, d => .ok d
  | n + 1, d => (allRanks f n d).bind fun d' => (f n (d n)).bind fun x => .ok (upd d' n x)

/-- The body of `split_patches`, PatchScheduler.cpp:705-758 (a range error is rethrown as a `runtime_error`). `junk` is the uninitialised link of the new
nodes. -/
def splitOne {α F : Type} [LinearOrder F] (env : SchedEnv α F) (W : Nat) (im : Nat → Nat) (junk : Nat) (s : Sched α) (tid : Nat) : Res (Sched α) :=
  (s.tree.splitNode tid junk).bind fun t1 =>
  match t1.tree tid with
  | none => .ub
  | some nd =>
    (listSplit im s.global s.nextPid nd.linked).bind fun gni =>
    (patchesAt gni.1 gni.2.2).bind fun ps =>
    (t1.setLinked tid u64max).bind fun t2 =>
    (linkAll (nd.childs.zip (ps.map (·.idPatch))) t2).bind fun t3 =>
    (allRanks (fun _ d => pdSplit env nd.linked ps d) W s.data).bind fun data' =>
    .ok { s with tree := t3, global := gni.1, nextPid := gni.2.1, data := data' }

/-- `split_patches`, PatchScheduler.cpp:701-760. -/
def splitPatches {α F : Type} [LinearOrder F] (env : SchedEnv α F) (W : Nat) (im : Nat → Nat) (junk : Nat → Nat) : List Nat → Sched α → Res (Sched α)
  | [], s => .ok s
  | tid :: r, s => (splitOne env W im (junk tid) s tid).bind fun s' => splitPatches env W im junk r s'

/-- `patch_tree.tree[child].linked_patchid` for the children of a node, PatchScheduler.cpp:770-777 (a missing node is not expected: `ub`). -/
def linksOf (t : PTree) : List Nat → Res (List Nat)
  | [] => .ok []
  | c :: cs => match t.tree c with
    | none => .ub
    | some n => (linksOf t cs).bind fun r => .ok (n.linked :: r)

/-- `global[i].pack_node_index = k`. -/
def setPack (k : Nat) : List Nat → List Patch → Res (List Patch)
  | [], g => .ok g
  | i :: is, g => match g[i]? with
    | none => .ub
    | some p => setPack k is (g.set i { p with packNodeIndex := k })

/-- `set_patch_pack_values`, PatchScheduler.cpp:813-834. -/
def setPackValues (im : Nat → Nat) (t : PTree) : List Nat → List Patch → Res (List Patch)
  | [], g => .ok g
  | tid :: r, g => match t.tree tid with
    | none => .ub
    | some nd => (linksOf t nd.childs).bind fun ids =>
      match ids with
      | [] => .ub
      | id0 :: rest => (setPack (im id0) (rest.map im) g).bind fun g' => setPackValues im t r g'

/-- `global[i].set_err_mode()`, /repo/src/shamrock/include/shamrock/patch/Patch.hpp:56,111. -/
def setErr : List Nat → List Patch → Res (List Patch)
  | [], g => .ok g
  | i :: is, g => match g[i]? with
    | none => .ub
    | some p => setErr is (g.set i { p with nodeOwnerId := 2 ^ 32 - 1 })

/-- `SchedulerPatchList::merge_patch`, scheduler_patch_list.cpp:160-183. -/
def listMerge (idxs : List Nat) (g : List Patch) : Res (List Patch) :=
  (patchesAt g idxs).bind fun ps =>
  match mergePatch ps, idxs with
  | some p, i0 :: is => setErr is (g.set i0 p)
  | _, _ => .ub

/-- The body of `merge_patches`, PatchScheduler.cpp:766-809. -/
def mergeOne {α : Type} (lay : List Nat) (W : Nat) (im : Nat → Nat) (s : Sched α) (tid : Nat) : Res (Sched α) :=
  match s.tree.tree tid with
  | none => .ub
  | some nd => (linksOf s.tree nd.childs).bind fun ids =>
    match ids with
    | [] => .ub
    | id0 :: _ => match s.global[im id0]? with
      | none => .ub
      | some p0 =>
        (allRanks (fun r d => if p0.nodeOwnerId = r then pdMerge lay id0 ids d else .ok d) W s.data).bind fun data' =>
        (listMerge (ids.map im) s.global).bind fun g' =>
        (s.tree.mergeNode tid).bind fun t1 =>
        (t1.setLinked tid id0).bind fun t2 =>
        .ok { s with tree := t2, global := g', data := data' }

/-- `merge_patches`, PatchScheduler.cpp:762-811. -/
def mergePatches {α : Type} (lay : List Nat) (W : Nat) (im : Nat → Nat) : List Nat → Sched α → Res (Sched α)
  | [], s => .ok s
  | tid :: r, s => (mergeOne lay W im s tid).bind fun s' => mergePatches lay W im r s'

/-- `build_local` on rank `r`, scheduler_patch_list.cpp:34-49 (`i32(u32_max)` is -1: no rank). -/
def buildLocal (g : List Patch) (r : Nat) : List Patch := g.filter fun p => p.nodeOwnerId == r && !p.isErrMode

/-- `reset_local_pack_index`, scheduler_patch_list.cpp:102-107. -/
def resetPack (l : List Patch) : List Patch := l.map fun p => { p with packNodeIndex := u64max }

/-- `build_global`, scheduler_patch_list.cpp:25-32: the allgatherv of the local lists (its effect is property C26). -/
def buildGlobal (W : Nat) (locals : Nat → List Patch) : List Patch := (List.range W).flatMap locals

/-- What is left open by the execution of one step: `ls`, `ps` the iteration orders of `leaf_key` and `parent_of_only_leaf_key`, `iterS`, `iterM` those of the
request sets, `junk` the uninitialised links, `iterO` the iteration order of `owned_patch_id` on each rank. -/
structure StepEnv where
  ls : List Nat
  ps : List Nat
  iterS : List Nat → List Nat
  iterM : List Nat → List Nat
  iterO : Nat → List Nat → List Nat
  junk : Nat → Nat
  /-- the order in which the packing loop of the load balancer treats a list of `n` patches -/
  packOrder : Nat → List Nat

/-- The load balancer: rounding, sorting and curve used by `make_change_list`, and the serialization of the patch data into a message and back. -/
structure LBEnv (α P : Type) where
  rnd : F64Rnd
  sort : SortImpl
  hilb : V3 Nat → Nat
  ser : PLayer α → Res P
  des : P → Res (PLayer α)

/-- The first part of `scheduler_step`, PatchScheduler.cpp:387-454: the state before load balancing, the split requests, the merge requests, and
`id_patch_to_global_idx`. -/
def schedPre {α F : Type} [LinearOrder F] (env : SchedEnv α F) (W : Nat) (e : StepEnv) (doSM : Bool) (s : Sched α) :
    Res (Sched α × List Nat × List Nat × (Nat → Nat)) :=
  if s.fresh = false then .throws else
  let g := buildGlobal W s.locals
  if doSM = false then .ok ({ s with global := g }, [], [], gidx g)
  else
    (s.tree.partialReduction (loadsOf g) e.ls e.ps).bind fun t1 =>
    (splitPatches env W (gidx g) e.junk (e.iterS (e.ls.filter fun x => t1.splitRequest env.critSplit x)) { s with tree := t1, global := g }).bind fun s1 =>
    (setPackValues (gidx s1.global) s1.tree (e.iterM (e.ps.filter fun x => t1.mergeRequest env.critMerge x)) s1.global).bind fun g2 =>
    .ok ({ s1 with global := g2 }, e.iterS (e.ls.filter fun x => t1.splitRequest env.critSplit x),
      e.iterM (e.ps.filter fun x => t1.mergeRequest env.critMerge x), gidx s1.global)

/-- The last part of `scheduler_step`, PatchScheduler.cpp:476-493 (`im` was built before the load balancing, line 451). -/
def schedPost {α : Type} (lay : List Nat) (W : Nat) (e : StepEnv) (im : Nat → Nat) (srq mrq : List Nat) (s : Sched α) : Res (Sched α) :=
  (mergePatches lay W im mrq s).bind fun s1 =>
  .ok { s1 with
    locals := fun r => resetPack (buildLocal s1.global r)
    owned := fun r => e.iterO r ((buildLocal s1.global r).map (·.idPatch))
    fresh := s1.fresh && srq.isEmpty && mrq.isEmpty }

/-- The load balancing of `scheduler_step`, PatchScheduler.cpp:456-472: `make_change_list` on the global list, then `apply_change_list` on all ranks, with any
network execution that ends (`prog` are the messages of the ranks, `st` the state of the network at the end). -/
def SchedLB {α P : Type} (b : LBEnv α P) (W : Nat) (e : StepEnv) (s s2 : Sched α) : Prop :=
  ∃ (ops : List ChangeOp) (ps' : List Patch) (prog : Nat → NProg P) (sf ord : Bool) (n : Nat) (st : NState P) (data' : Nat → RankData α),
    makeChangeList b.rnd b.sort b.hilb W (e.packOrder s.global.length) s.global = .ok ops ∧ aclOwners ops s.global = .ok ps' ∧
    (∀ r < W, aclSends b.ser r (s.data r) ops = .ok (prog r).sends ∧ (prog r).recvs = aclRecvs r ops) ∧
    NRun W prog sf ord n st ∧ st.Final W prog ∧
    (∀ r < W, aclFinish b.des r (st.got r) ops (s.data r) = .ok (data' r)) ∧ s2 = { s with global := ps', data := data' }

/-- `scheduler_step(do_split_merge, do_load_balancing)`, PatchScheduler.cpp:308-499, on all ranks. -/
def SchedStep {α F P : Type} [LinearOrder F] (env : SchedEnv α F) (b : LBEnv α P) (W : Nat) (e : StepEnv) (doSM doLB : Bool) (s s' : Sched α) : Prop :=
  ∃ s1 srq mrq im s2, schedPre env W e doSM s = .ok (s1, srq, mrq, im) ∧
    ((doLB = true ∧ SchedLB b W e s1 s2) ∨ (doLB = false ∧ s2 = s1)) ∧ schedPost env.lay W e im srq mrq s2 = .ok s'

/-- `update_local_load_value` on one rank, PatchScheduler.hpp:141-147. -/
def updLoads (f : Patch → Nat) (im : Nat → Nat) : List Nat → List Patch → Res (List Patch)
  | [], l => .ok l
  | id :: ids, l => match l[im id]? with
    | none => .ub
    | some p => updLoads f im ids (l.set (im id) { p with loadValue := f p })

/-- `update_local_load_value` on all ranks. -/
def updateLoads {α : Type} (W : Nat) (f : Nat → Patch → Nat) (s : Sched α) : Res (Sched α) :=
  (allRanks (fun r l => updLoads (f r) (gidx l) (s.owned r) l) W s.locals).bind fun l => .ok { s with locals := l, fresh := true }

/-- One iteration of the loop of `add_root_patches`, PatchScheduler.cpp:108-144. -/
def addRoot {α : Type} (lay : List Nat) (s : Sched α) (c : PatchCoord) : Res (Sched α) :=
  let root : Patch := ⟨s.nextPid, u64max, 0, c, 0⟩
  (addAll [(s.nextPid, (PLayer.empty lay : PLayer α))] (s.data 0)).bind fun d0 =>
  .ok { s with global := s.global ++ [root], nextPid := s.nextPid + 1, data := upd s.data 0 d0, tree := s.tree.insertRoot s.nextPid c }

/-- `add_root_patches`, PatchScheduler.cpp:101-165. The result of `build_local` is discarded: `owned_patch_id` is not updated. -/
def addRoots {α : Type} (lay : List Nat) : List PatchCoord → Sched α → Res (Sched α)
  | [], s => .ok { s with locals := fun r => resetPack (buildLocal s.global r), fresh := false }
  | c :: cs, s => (addRoot lay s c).bind fun s' => addRoots lay cs s'

/-- A scheduler after `init_mpi_required_types` and before any patch exists: PatchScheduler.hpp:94-110, PatchTree.hpp. -/
def Sched.empty {α : Type} : Sched α := ⟨PTree.init, [], 0, false, fun _ => [], fun _ => [], fun _ => []⟩

/-- What the models do after `add_root_patches`: `sched.owned_patch_id = sched.patch_list.build_local()`,
/repo/src/shammodels/sph/src/Model.cpp:77 (and the other models). -/
def refreshOwned {α : Type} (iterO : Nat → List Nat → List Nat) (s : Sched α) : Sched α :=
  { s with locals := fun r => buildLocal s.global r, owned := fun r => iterO r ((buildLocal s.global r).map (·.idPatch)) }

end Shamrock
