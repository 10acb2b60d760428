import Verif.Model.Patch
import Verif.Model.Res
/-! The patch tree: /repo/src/shamrock/src/scheduler/PatchTree.cpp and /repo/src/shamrock/include/shamrock/scheduler/PatchTreeNode.hpp.

`std::unordered_map<u64, Node> tree` is a function `Nat → Option PTNode`, the `std::unordered_set`s are characteristic functions. `tree[id]` for
a missing id would insert a default node; the model reports `ub` and the theorems show that it does not happen. -/
namespace Shamrock

/-- Assignment `f[k] = v`. -/
def upd {V : Type} (f : Nat → V) (k : Nat) (v : V) : Nat → V := fun x => if x = k then v else f x

/-- `PatchTreeNode` with its `LinkedTreeNode`, PatchTreeNode.hpp:34-81. -/
structure PTNode where
  coord : PatchCoord
  level : Nat
  parent : Nat
  childs : List Nat
  isLeaf : Bool
  allLeafs : Bool
  linked : Nat
  load : Nat
  deriving DecidableEq, Repr

/-- `PatchTree`, /repo/src/shamrock/include/shamrock/scheduler/PatchTree.hpp:29-129. -/
structure PTree where
  tree : Nat → Option PTNode
  leafKey : Nat → Bool
  polk : Nat → Bool
  roots : Nat → Bool
  nextId : Nat

/-- The empty tree, PatchTree.hpp:37-55 and 120. -/
def PTree.init : PTree := ⟨fun _ => none, fun _ => false, fun _ => false, fun _ => false, 0⟩

/-- `insert_node`, PatchTree.cpp:28-32 (the `u64` counter is a natural: 2^64 nodes are not created). -/
def PTree.insertNode (t : PTree) (n : PTNode) : PTree × Nat :=
  ({ t with tree := upd t.tree t.nextId (some n), nextId := t.nextId + 1 }, t.nextId)

/-- The default member values of a node: `childs_nid{u64_max}` sets only the first entry, the others are 0 (PatchTreeNode.hpp:47-56, 81);
`linked` is not initialised. -/
def PTNode.fresh (coord : PatchCoord) (level parent linked : Nat) : PTNode :=
  ⟨coord, level, parent, u64max :: List.replicate 7 0, true, false, linked, u64max⟩

/-- `get_split_nodes(u32 cur_id)`, PatchTreeNode.hpp:124-138: the parent id passes through a `u32`. `junk` is the uninitialised
`linked_patchid`. -/
def PTNode.getSplitNodes (n : PTNode) (curId junk : Nat) : List PTNode :=
  (getSplit n.coord).map fun c => PTNode.fresh c ((n.level + 1) % 2 ^ 32) (curId % 2 ^ 32) junk

/-- The loop inserting the children, PatchTree.cpp:54-56; returns the ids. -/
def PTree.insertAll (t : PTree) : List PTNode → PTree × List Nat
  | [] => (t, [])
  | n :: r =>
    let a := t.insertNode n
    let b := a.1.insertAll r
    (b.1, a.2 :: b.2)

/-- The update of the parent in `split_node`, PatchTree.cpp:43-46. -/
def PTree.unmarkParent (t : PTree) (p : Nat) : Res PTree :=
  if p = u64max then .ok t
  else match t.tree p with
    | none => .ub
    | some pn => .ok { t with polk := upd t.polk p false, tree := upd t.tree p (some { pn with allLeafs := false }) }

/-- `split_node`, PatchTree.cpp:36-64. -/
def PTree.splitNode (t : PTree) (id junk : Nat) : Res PTree :=
  match t.tree id with
  | none => .ub
  | some curr => do
    let t1 ← PTree.unmarkParent { t with leafKey := upd t.leafKey id false } curr.parent
    let curr1 := { curr with isLeaf := false, allLeafs := true }
    let r := PTree.insertAll t1 (curr1.getSplitNodes id junk)
    .ok { r.1 with
      tree := upd r.1.tree id (some { curr1 with childs := r.2 })
      polk := upd r.1.polk id true
      leafKey := fun k => if k ∈ r.2 then true else r.1.leafKey k }

/-- The loop of `merge_node_dm1` that looks at the siblings, PatchTree.cpp:115-117 (`&&` does not evaluate the right side once false). -/
def PTree.onlyLeafs (t : PTree) : List Nat → Res Bool
  | [] => .ok true
  | c :: r => match t.tree c with
    | none => .ub
    | some n => if n.isLeaf then t.onlyLeafs r else .ok false

/-- The end of `merge_node_dm1`, PatchTree.cpp:110-123. -/
def PTree.remarkParent (t : PTree) (p : Nat) : Res PTree :=
  if p = u64max then .ok t
  else match t.tree p with
    | none => .ub
    | some pn => do
      let b ← t.onlyLeafs pn.childs
      if b then .ok { t with polk := upd t.polk p true, tree := upd t.tree p (some { pn with allLeafs := true }) } else .ok t

/-- `merge_node_dm1`, PatchTree.cpp:66-124. -/
def PTree.mergeNode (t : PTree) (id : Nat) : Res PTree :=
  match t.tree id with
  | none => .ub
  | some pn =>
    if pn.allLeafs = false then .throws
    else
      PTree.remarkParent { t with
        leafKey := upd (fun k => if k ∈ pn.childs then false else t.leafKey k) id true
        tree := upd (fun k => if k ∈ pn.childs then none else t.tree k) id
          (some { pn with childs := List.replicate 8 u64max, isLeaf := true, allLeafs := false })
        polk := upd t.polk id false } pn.parent

/-- `insert_root_node(u32 patch_id, coords)`, PatchTree.cpp:126-138. -/
def PTree.insertRoot (t : PTree) (patchId : Nat) (coord : PatchCoord) : PTree :=
  let a := t.insertNode (PTNode.fresh coord 0 u64max (patchId % 2 ^ 32))
  { a.1 with leafKey := upd a.1.leafKey a.2 true, roots := upd a.1.roots a.2 true }

/-- Assignment of `linked_patchid` of an existing node (PatchScheduler.cpp:716-732, 809). -/
def PTree.setLinked (t : PTree) (id pid : Nat) : Res PTree :=
  match t.tree id with
  | none => .ub
  | some n => .ok { t with tree := upd t.tree id (some { n with linked := pid }) }

/-! ### Load values -/

/-- Sum of the loads of the children and whether one is `u64_max`, PatchTree.cpp:250-259. -/
def PTree.childLoads (t : PTree) : List Nat → Nat → Bool → Res (Nat × Bool)
  | [], s, e => .ok (s, e)
  | c :: r, s, e => match t.tree c with
    | none => .ub
    | some n => t.childLoads r (u64add s n.load) (e || n.load == u64max)

/-- `update_ptnode`, PatchTree.cpp:238-265; `loads pid` is `plist[id_patch_to_global_idx.at(pid)].load_value` (`none`: `at` throws). -/
def PTree.updateNode (t : PTree) (loads : Nat → Option Nat) (id : Nat) : Res PTree :=
  match t.tree id with
  | none => .ub
  | some n =>
    if n.linked ≠ u64max then
      match loads n.linked with
      | none => .throws
      | some l => .ok { t with tree := upd t.tree id (some { n with load := u64add 0 l }) }
    else if n.childs.head? ≠ some u64max then do
      let s ← t.childLoads n.childs 0 false
      .ok { t with tree := upd t.tree id (some { n with load := if s.2 then u64max else s.1 }) }
    else .ok t

/-- A loop of `update_ptnode`. -/
def PTree.updateAll (loads : Nat → Option Nat) : List Nat → PTree → Res PTree
  | [], t => .ok t
  | i :: r, t => do
    let t' ← t.updateNode loads i
    PTree.updateAll loads r t'

/-- `partial_values_reduction`, PatchTree.cpp:281-293; `ls`, `ps` are the iteration orders of the two sets. -/
def PTree.partialReduction (t : PTree) (loads : Nat → Option Nat) (ls ps : List Nat) : Res PTree := do
  let t' ← PTree.updateAll loads ls t
  PTree.updateAll loads ps t'

/-- `get_split_request`, PatchTree.cpp:295-306, as a set. -/
def PTree.splitRequest (t : PTree) (crit id : Nat) : Bool := t.leafKey id && (match t.tree id with | some n => decide (crit < n.load) | none => false)

/-- `get_merge_request`, PatchTree.cpp:308-319, as a set. -/
def PTree.mergeRequest (t : PTree) (crit id : Nat) : Bool := t.polk id && (match t.tree id with | some n => decide (n.load < crit) | none => false)

end Shamrock
