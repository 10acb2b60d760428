import Verif.Model.PatchTree
import Verif.Model.Field
/-! The serialised patch tree and point location: /repo/src/shamrock/src/scheduler/SerialPatchTree.cpp and
/repo/src/shamrock/include/shamrock/scheduler/SerialPatchTree.hpp. `box` is `box_transform.to_obj_coord(patch_coord.get_patch_range())`. -/
namespace Shamrock

/-- `SerialPatchNode`, PatchTreeNode.hpp:25-30. -/
structure SNode (F : Type) where
  lo : V3 F
  hi : V3 F
  childs : List Nat
deriving DecidableEq, Repr

/-- `serial_tree`, `linked_patch_ids`, `counter`, `max_level` (SerialPatchTree.hpp:73-77, SerialPatchTree.cpp:22-29). -/
structure SSt (F : Type) where
  nodes : List (SNode F)
  links : List Nat
  cnt : Nat
  lev : Nat
deriving DecidableEq, Repr

/-- `PatchTreeNode::convert`, PatchTreeNode.hpp:96-115. -/
def PTNode.convert {F : Type} (box : PatchCoord → V3 F × V3 F) (n : PTNode) : SNode F := ⟨(box n.coord).1, (box n.coord).2, n.childs⟩

/-- `result_tree.push_back(n); …; counter++`, SerialPatchTree.cpp:36-41. -/
def SSt.push {F : Type} (box : PatchCoord → V3 F × V3 F) (s : SSt F) (n : PTNode) : SSt F :=
  ⟨s.nodes ++ [n.convert box], s.links ++ [n.linked], s.cnt + 1, max n.level s.lev⟩

/-- `result_tree.at(id).childs_id[k] = counter`, SerialPatchTree.cpp:56 and following. -/
def SSt.setChild {F : Type} (s : SSt F) (id k : Nat) : Res (SSt F) :=
  match s.nodes[id]? with
  | none => .throws
  | some nd => .ok { s with nodes := s.nodes.set id { nd with childs := nd.childs.set k s.cnt } }

/-- The eight recursive calls, SerialPatchTree.cpp:56-134 (`cs`: remaining children, `k` the index of the first). -/
def serChilds {F : Type} (rec : Nat → SSt F → Res (SSt F)) (id : Nat) : List Nat → Nat → SSt F → Res (SSt F)
  | [], _, s => .ok s
  | c :: cs, k, s => (s.setChild id k).bind fun s1 => (rec c s1).bind fun s2 => serChilds rec id cs (k + 1) s2

/-- get_serial_tree, SerialPatchTree.cpp:22-136. The first argument bounds the recursion depth (`ub` beyond); a missing key of the map would
insert a default node: `ub`. -/
def serTree {F : Type} (box : PatchCoord → V3 F × V3 F) (t : PTree) : Nat → Nat → SSt F → Res (SSt F)
  | 0, _, _ => .ub
  | fuel + 1, key, s =>
    match t.tree key with
    | none => .ub
    | some n => if n.isLeaf then .ok (s.push box n) else serChilds (serTree box t fuel) s.cnt n.childs 0 (s.push box n)

/-- build_from_patch_tree, SerialPatchTree.cpp:182-196; `rs` is the iteration order of `roots_id`. The result includes `roots_ids`. -/
def serRoots {F : Type} (box : PatchCoord → V3 F × V3 F) (t : PTree) : List Nat → SSt F → List Nat → Res (SSt F × List Nat)
  | [], s, ids => .ok (s, ids)
  | r :: rs, s, ids => (serTree box t (t.nextId + 1) r s).bind fun s' => serRoots box t rs s' (ids ++ [s.cnt])

def serBuild {F : Type} (box : PatchCoord → V3 F × V3 F) (t : PTree) (rs : List Nat) : Res (SSt F × List Nat) :=
  serRoots box t rs ⟨[], [], 0, 0⟩ []

/-- The root loop of compute_patch_owner, SerialPatchTree.hpp:283-294 (`root_id` is a u32). -/
def ownerRoot {F : Type} [LinearOrder F] (nodes : List (SNode F)) (p : V3 F) : List Nat → Res Nat
  | [] => .ok 0
  | r :: rs =>
    match nodes[r % 2 ^ 32]? with
    | none => .ub
    | some nd => if inPatchConverted p nd.lo nd.hi then .ok (r % 2 ^ 32) else ownerRoot nodes p rs

/-- The if/else chain over the children, SerialPatchTree.hpp:303-350: the first child containing the position, else no move. -/
def ownerChild {F : Type} [LinearOrder F] (nodes : List (SNode F)) (p : V3 F) (cur : Nat) : List Nat → Res Nat
  | [] => .ok cur
  | c :: cs =>
    match nodes[c]? with
    | none => .ub
    | some nd => if inPatchConverted p nd.lo nd.hi then .ok c else ownerChild nodes p cur cs

/-- The descent, SerialPatchTree.hpp:296-357. -/
def ownerLoop {F : Type} [LinearOrder F] (s : SSt F) (p : V3 F) : Nat → Nat → Res Nat
  | 0, _ => .ok u64max
  | steps + 1, cur =>
    match s.nodes[cur]? with
    | none => .ub
    | some nd =>
      if nd.childs.head? ≠ some u64max then (ownerChild s.nodes p cur nd.childs).bind fun c => ownerLoop s p steps c
      else match s.links[cur]? with
        | none => .ub
        | some l => .ok l

/-- One work item of compute_patch_owner, SerialPatchTree.hpp:278-360. -/
def patchOwner {F : Type} [LinearOrder F] (s : SSt F) (roots : List Nat) (p : V3 F) : Res Nat :=
  (ownerRoot s.nodes p roots).bind fun cur => ownerLoop s p (s.lev + 1) cur

/-- The stack loop of host_for_each_leafs_internal, SerialPatchTree.hpp:116-144: leaves (linked id, node) for which `cd` accepts all nodes
from the root, in the order of the calls of `found_case`. `none`: still running after the given number of turns. -/
def forEachLeaf {F : Type} (s : SSt F) (cd : Nat → SNode F → Bool) : Nat → List Nat → List (Nat × SNode F) → Option (Res (List (Nat × SNode F)))
  | 0, _, _ => none
  | _ + 1, [], acc => some (.ok acc)
  | f + 1, cur :: st, acc =>
    match s.nodes[cur]?, s.links[cur]? with
    | some nd, some l =>
      if cd cur nd then
        if l ≠ u64max then forEachLeaf s cd f st (acc ++ [(l, nd)])
        else forEachLeaf s cd f (nd.childs.reverse ++ st) acc
      else forEachLeaf s cd f st acc
    | _, _ => some .ub

end Shamrock
