import Verif.Model.Karras
import Verif.Model.Kernel
import Verif.Model.Search
/-! Operations on a built radix tree: upward propagation of a field and the stack traversal. -/
namespace Shamrock

/-- `get_left_child`, /repo/src/shamtree/include/shamtree/KarrasTreeTraverser.hpp:52-54 (u32 arithmetic). `off` is the number of internal
cells, the index of the first leaf cell. -/
def leftChild (off : Nat) (nd : KNode) : Nat := u32add nd.lchild (u32mul off (if nd.lflag then 1 else 0))

/-- `get_right_child`, KarrasTreeTraverser.hpp:62-64. -/
def rightChild (off : Nat) (nd : KNode) : Nat := u32add nd.rchild (u32mul off (if nd.rflag then 1 else 0))

/-- Read entry `a` of the shared buffer into the private list of values. -/
def readStep {α : Type} (a : Nat) : KStep (List α) α := fun l m => m[a]?.map fun v => (l ++ [v], m)

/-- Combine the two values read and write entry `a`. -/
def combineStep {α : Type} (comb : α → α → α) (a : Nat) : KStep (List α) α := fun l m =>
  match l with
  | [x, y] => if a < m.length then some ([], m.set a (comb x y)) else none
  | _ => none

/-- Work item `gid` of the step of `propagate_field_up`, /repo/src/shamtree/include/shamtree/KarrasRadixTreeField.hpp:150-161; the step of
`propagate_aabb_up`, /repo/src/shamtree/src/KarrasRadixTreeAABB.cpp:48-68, is this one with `min` on one buffer and with `max` on the
other. The three accesses to the shared buffer are separate steps: the launch may interleave the items in any way. -/
def propItem {α : Type} (comb : α → α → α) (off : Nat) (nodes : List KNode) (gid : Nat) : List (KStep (List α) α) :=
  match nodes[gid]? with
  | some nd => [readStep (leftChild off nd), readStep (rightChild off nd), combineStep comb gid]
  | none => [fun _ _ => none]

/-- `propagate_field_up`, KarrasRadixTreeField.hpp:134-169: one launch over the internal cells per level, `scheds` gives the schedule of
each launch (its length is `tree_depth`). Nothing to do if there is no internal cell (:141-143). -/
def propagateUp {α : Type} (comb : α → α → α) (nodes : List KNode) : List (List Nat) → List α → Option (List α)
  | [], m => some m
  | s :: r, m =>
    if nodes.length = 0 then some m
    else (kLaunch nodes.length (propItem comb nodes.length nodes) [] s m).bind (propagateUp comb nodes r)

/-- What the callbacks of the traversal see. -/
inductive TEvent where
  | found (id : Nat)
  | excluded (id : Nat)
  deriving DecidableEq, Repr

/-- `id_stack[stack_cursor - 1] = id; stack_cursor--;`, KarrasTreeTraverser.hpp:108-112; `none` if out of the array. -/
def pushId (st : List Nat) (c id : Nat) : Option (List Nat × Nat) :=
  if c = 0 ∨ st.length < c then none else some (st.set (c - 1) id, c - 1)

/-- The loop of `stack_based_traversal`, KarrasTreeTraverser.hpp:85-119: stack array, cursor, events so far. `none` = access out of
bounds, or fuel exhausted. -/
def travLoop (D off : Nat) (nodes : List KNode) (cond : Nat → Bool) : Nat → List Nat → Nat → List TEvent → Option (List TEvent)
  | 0, _, _, _ => none
  | fuel + 1, st, c, ev =>
    if c < D then
      (st[c]?).bind fun id =>
        if cond id then
          if off ≤ id then travLoop D off nodes cond fuel (st.set c u32max) (c + 1) (ev ++ [.found id])
          else (nodes[id]?).bind fun nd =>
            (pushId (st.set c u32max) (c + 1) (rightChild off nd)).bind fun p =>
              (pushId p.1 p.2 (leftChild off nd)).bind fun q => travLoop D off nodes cond fuel q.1 q.2 ev
        else travLoop D off nodes cond fuel (st.set c u32max) (c + 1) (ev ++ [.excluded id])
    else some ev

/-- `stack_based_traversal<D>(root, ...)`, KarrasTreeTraverser.hpp:70-119. The array is not initialised in the code; the entries that are
not written are never read. -/
def stackTraversal (D : Nat) (nodes : List KNode) (cond : Nat → Bool) (root fuel : Nat) : Option (List TEvent) :=
  if D = 0 then none else travLoop D nodes.length nodes cond fuel ((List.replicate D 0).set (D - 1) root) (D - 1) []

end Shamrock
