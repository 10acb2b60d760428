import Verif.Model.BVH
import Verif.Model.Containers
import Verif.Model.Scan
import Verif.Model.Search
/-! `clbvh_dual_tree_traversal`: the three implementations and the ordering of the result. -/
namespace Shamrock

section
variable {F : Type} [LinearOrder F]

/-- The box of a cell, read by all the implementations, e.g. /repo/src/shamtree/include/shamtree/details/dtt_reference.hpp:57-64; `none` =
out of bounds. -/
def cellBox (t : BVH F) (a : Nat) : Option (V3 F × V3 F) := do
  let l ← t.bmin[a]?
  let u ← t.bmax[a]?
  pure (l, u)

/-- The acceptance criterion as a function of two boxes (`mac(aabb_a, aabb_b, theta_crit)`,
/repo/src/shamtree/include/shamtree/details/multipole_acceptance_crit.hpp:93-95, for one `theta_crit`): arbitrary here. -/
abbrev Mac (F : Type) := V3 F × V3 F → V3 F × V3 F → Bool

/-- `is_id_leaf`, /repo/src/shamtree/include/shamtree/KarrasTreeTraverser.hpp:42-44. -/
def isIdLeaf (t : BVH F) (id : Nat) : Bool := t.nodes.length ≤ id

/-- `get_left_child(id)`, `get_right_child(id)`, KarrasTreeTraverser.hpp:52-64; `none` = out of bounds. -/
def childrenOf (t : BVH F) (id : Nat) : Option (List Nat) :=
  (t.nodes[id]?).map fun nd => [leftChild t.nodes.length nd, rightChild t.nodes.length nd]

/-- What is done with a pair of cells: accepted, left to the direct sum, or opened. -/
inductive DOut where
  | m2l
  | p2p
  | split (as bs : List Nat)

/-- The test of a pair, the same text in the three implementations: dtt_reference.hpp:57-124, dtt_parallel_select.hpp:106-197 and
272-363, dtt_scan_multipass.hpp:161-242. The lists are the children on which `run_a_1`, `run_a_2` (resp. `run_b_1`, `run_b_2`) hold: a
leaf stands for itself, once. -/
def dttStep (low : Bool) (mac : Mac F) (t : BVH F) (a b : Nat) : Option DOut := do
  let ba ← cellBox t a
  let bb ← cellBox t b
  if mac ba bb then pure .m2l
  else if low then
    if isIdLeaf t a && isIdLeaf t b then pure .p2p
    else do
      let as ← if isIdLeaf t a then pure [a] else childrenOf t a
      let bs ← if isIdLeaf t b then pure [b] else childrenOf t b
      pure (.split as bs)
  else do
    let as ← childrenOf t a
    let bs ← childrenOf t b
    if as.any (isIdLeaf t) || bs.any (isIdLeaf t) then pure .p2p else pure (.split as bs)

/-- Order (1,1), (2,1), (1,2), (2,2) of the four conditional calls, dtt_reference.hpp:90-97, 116-119. -/
def pairsBA (as bs : List Nat) : List (Nat × Nat) := bs.flatMap fun b => as.map fun a => (a, b)
/-- Order (1,1), (1,2), (2,1), (2,2), dtt_scan_multipass.hpp:231-234, dtt_parallel_select.hpp:189-196. -/
def pairsAB (as bs : List Nat) : List (Nat × Nat) := as.flatMap fun a => bs.map fun b => (a, b)

/-- The two result vectors, `interact_m2l` and `interact_p2p`. -/
abbrev Inter := List (Nat × Nat) × List (Nat × Nat)

/-- `dtt_recursive_internal`, dtt_reference.hpp:41-125. -/
def dttRec (low : Bool) (mac : Mac F) (t : BVH F) : Nat → Inter → Nat × Nat → Option Inter
  | 0, _, _ => none
  | fuel + 1, st, (a, b) =>
    match dttStep low mac t a b with
    | none => none
    | some .m2l => some (st.1 ++ [(a, b)], st.2)
    | some .p2p => some (st.1, st.2 ++ [(a, b)])
    | some (.split as bs) => (pairsBA as bs).foldlM (dttRec low mac t fuel) st

/-- `dtt_recursive_ref`, dtt_reference.hpp:127-153. -/
def dttReference (low : Bool) (mac : Mac F) (t : BVH F) : Option Inter :=
  if isIdLeaf t 0 then some ([], [(0, 0)]) else dttRec low mac t (2 * t.nodes.length + 1) ([], []) (0, 0)

/-! ### parallel_select -/

/-- `AABB::contains`, /repo/src/shammath/include/shammath/AABB.hpp:244-248. -/
def aabbContains (c o : V3 F × V3 F) : Bool :=
  (c.1.x ≤ o.1.x && c.1.y ≤ o.1.y && c.1.z ≤ o.1.z) && (o.2.x ≤ c.2.x && o.2.y ≤ c.2.y && o.2.z ≤ c.2.z)

/-- `is_kdnode_within_node(node_id)` in item `i`, dtt_parallel_select.hpp:77-83. -/
def withinNode (t : BVH F) (i c : Nat) : Option Bool := do
  let bi ← cellBox t i
  let bc ← cellBox t c
  pure (aabbContains bc bi)

/-- The children of `a` in whose box item `i` lies, dtt_parallel_select.hpp:146-150, 182-196. -/
def withinKids (t : BVH F) (i : Nat) : List Nat → Option (List Nat)
  | [] => some []
  | c :: cs => do
    let b ← withinNode t i c
    let r ← withinKids t i cs
    pure (if b then c :: r else r)

/-- `stack.push` of a list of pairs. -/
def pushAll {D : Nat} (s : FixedStack (Nat × Nat) D) : List (Nat × Nat) → Option (FixedStack (Nat × Nat) D)
  | [] => some s
  | p :: ps => (s.push p).bind fun s' => pushAll s' ps

/-- The loop of work item `i`, dtt_parallel_select.hpp:101-204 (count) and 267-371 (fill); both kernels run the same loop, the first one
counts what the second one writes. -/
def selLoop (low : Bool) (mac : Mac F) (t : BVH F) (i D : Nat) : Nat → FixedStack (Nat × Nat) D → Inter → Option Inter
  | 0, _, _ => none
  | fuel + 1, s, st =>
    if s.isNotEmpty then
      match s.popRet with
      | none => none
      | some ((a, b), s) =>
        match dttStep low mac t a b with
        | none => none
        | some .m2l => selLoop low mac t i D fuel s (if a = i then (st.1 ++ [(a, b)], st.2) else st)
        | some .p2p => selLoop low mac t i D fuel s (if a = i then (st.1, st.2 ++ [(a, b)]) else st)
        | some (.split as bs) =>
          if low then
            if a = i ∧ as.head? ≠ some a then selLoop low mac t i D fuel s st
            else
              match (withinKids t i as).bind fun as' => pushAll s (pairsBA as' bs) with
              | none => none
              | some s' => selLoop low mac t i D fuel s' st
          else
            match withinKids t i as with
            | none => none
            | some as' =>
              if a = i then selLoop low mac t i D fuel s st
              else match pushAll s (pairsAB as' bs) with
                | none => none
                | some s' => selLoop low mac t i D fuel s' st
    else some st

/-- Work item `i`, dtt_parallel_select.hpp:74-204; the stack has `tree_depth_max + 1` entries, where `tree_depth_max` is the number of
significant bits plus one (CLBVHObjectIterator.hpp:77). -/
def selItem (low : Bool) (mac : Mac F) (t : BVH F) (D i : Nat) : Option Inter :=
  if i = 0 ∧ isIdLeaf t 0 then some ([], [(0, 0)])
  else (FixedStack.push (FixedStack.empty0 (Nat × Nat) D) (0, 0)).bind fun s =>
    selLoop low mac t i D ((2 * t.nodes.length + 1) * (2 * t.nodes.length + 1) + 1) s ([], [])

/-- Store `run` from index `o` on. -/
def storeRun {α : Type} (buf : List α) (o : Nat) : List α → Option (List α)
  | [] => some buf
  | x :: r => (wr buf o x).bind fun b => storeRun b (o + 1) r

/-- Item `i` stores its run from its offset on; `order` is the order of execution of the items (their ranges are disjoint). -/
def scatterRuns {α : Type} (offs : List W32) (runs : List (List α)) (order : List Nat) (buf : List α) : Option (List α) :=
  order.foldlM (fun b i => do
    let o ← offs[i]?
    let r ← runs[i]?
    storeRun b o.toNat r) buf

/-- Counts, exclusive scan over `N + 1` entries, allocation and fill, dtt_parallel_select.hpp:57-60, 206-223, 227-372. The scan is
taken to be the sequential one (C14). The result also has the scan. `junk` is the content of the new buffer. -/
def compactRuns {α : Type} (junk : Nat → α) (order : List Nat) (runs : List (List α)) : Option (List α × List W32) := do
  let scan := exclSumFallback (runs.map (fun r => BitVec.ofNat 32 r.length) ++ [0])
  let total ← scan[runs.length]?
  let out ← scatterRuns scan runs order ((List.range total.toNat).map junk)
  pure (out, scan)

/-- A result with its offsets, `DTTResult::OrderedResult`. -/
structure DTTOrdered where
  m2l : List (Nat × Nat)
  p2p : List (Nat × Nat)
  offM2l : List W32
  offP2p : List W32

/-- `DTTParallelSelect::dtt_internal`, dtt_parallel_select.hpp:40-385. -/
def dttSelect (low : Bool) (mac : Mac F) (t : BVH F) (D : Nat) (junk : Nat → Nat × Nat) (order : List Nat) : Option DTTOrdered := do
  let items ← (List.range (2 * t.nodes.length + 1)).mapM (selItem low mac t D)
  let m ← compactRuns junk order (items.map (·.1))
  let p ← compactRuns junk order (items.map (·.2))
  pure ⟨m.1, p.1, m.2, p.2⟩

/-! ### scan_multipass -/

/-- What work item `i` of the test kernel pushes: tasks, m2l, p2p, dtt_scan_multipass.hpp:151-243. -/
def passItem (low : Bool) (mac : Mac F) (t : BVH F) (ab : Nat × Nat) : Option (List (Nat × Nat) × Inter) :=
  (dttStep low mac t ab.1 ab.2).map fun
    | .m2l => ([], [ab], [])
    | .p2p => ([], [], [ab])
    | .split as bs => (if low then pairsBA as bs else pairsAB as bs, [], [])

/-- The loop over the passes, dtt_scan_multipass.hpp:111-349: test kernel, three scans, three compactions. `ord k` are the orders of
execution of the three compaction kernels of pass `k`. The buffer `task_next` has `4 * task_count` entries (a u32, :117). -/
def passLoop (low : Bool) (mac : Mac F) (t : BVH F) (junk : Nat → Nat × Nat) (ord : Nat → Nat → Nat → List Nat) :
    Nat → List (Nat × Nat) → Inter → Option Inter
  | 0, _, _ => none
  | fuel + 1, tasks, st =>
    if tasks.length = 0 then some st
    else if 2 ^ 32 ≤ 4 * tasks.length then none
    else do
      let outs ← tasks.mapM (passItem low mac t)
      let nt ← compactRuns junk (ord fuel 0 tasks.length) (outs.map (·.1))
      let nm ← compactRuns junk (ord fuel 1 tasks.length) (outs.map (·.2.1))
      let np ← compactRuns junk (ord fuel 2 tasks.length) (outs.map (·.2.2))
      passLoop low mac t junk ord fuel nt.1 (st.1 ++ nm.1, st.2 ++ np.1)

/-- `DTTScanMultipass::dtt_internal` without the ordering, dtt_scan_multipass.hpp:41-349. -/
def dttMultipass (low : Bool) (mac : Mac F) (t : BVH F) (junk : Nat → Nat × Nat) (ord : Nat → Nat → Nat → List Nat) : Option Inter :=
  if isIdLeaf t 0 then some ([], [(0, 0)])
  else passLoop low mac t junk ord (2 * t.nodes.length + 2) [(0, 0)] ([], [])

/-! ### Ordering -/

/-- Counting kernel, /repo/src/shamtree/include/shamtree/details/reorder_scan_dtt_result.hpp:46-61 (relaxed atomic additions: any order
of the items). -/
def reorderCount (inter : List (Nat × Nat)) (order : List Nat) (offs : List W32) : Option (List W32) :=
  order.foldlM (fun o i => do
    let ab ← inter[i]?
    let v ← o[ab.1]?
    wr o ab.1 (v + 1)) offs

/-- Scatter kernel, reorder_scan_dtt_result.hpp:75-96: one atomic `fetch_add` per item, then a store at the place got. -/
def reorderScatter (inter : List (Nat × Nat)) (order : List Nat) (buf : List (Nat × Nat)) (heads : List W32) :
    Option (List (Nat × Nat) × List W32) :=
  order.foldlM (fun s i => do
    let ab ← inter[i]?
    let h ← s.2[ab.1]?
    let b ← wr s.1 h.toNat ab
    let hs ← wr s.2 ab.1 (h + 1)
    pure (b, hs)) (buf, heads)

/-- Choices of the environment in the ordering. -/
structure ReorderEnv where
  ordCount : List Nat
  ordScatter : List Nat
  ordSeg : List Nat
  junk : Nat → Nat × Nat

/-- `reorder_scan_dtt_result(N, in_out, offsets)`, reorder_scan_dtt_result.hpp:27-110: ordered interactions and offsets. `none` =
undefined behaviour or exception. -/
def reorderScan (sortRange : Nat → Nat → List (Nat × Nat) → Option (List (Nat × Nat))) (env : ReorderEnv) (N : Nat)
    (inter : List (Nat × Nat)) : Option (List (Nat × Nat) × List W32) :=
  if inter.length = 0 then some (inter, List.replicate (N + 1) 0)
  else do
    let cnt ← reorderCount inter env.ordCount (List.replicate (N + 1) 0)
    let offs := exclSumFallback cnt
    let s ← reorderScatter inter env.ordScatter ((List.range inter.length).map env.junk) offs
    match ← segmentedSortWith sortRange (offs.map (·.toNat)) env.ordSeg s.1 with
    | .ok out => pure (out, offs)
    | .throws => none

/-- The tail of the reference and multipass implementations when `ordered_result` is set, dtt_reference.hpp:182-196,
dtt_scan_multipass.hpp:58-78; `N` is `get_total_cell_count()`. -/
def addOrdering (sortRange : Nat → Nat → List (Nat × Nat) → Option (List (Nat × Nat))) (envM envP : ReorderEnv) (N : Nat) (r : Inter) :
    Option DTTOrdered := do
  let m ← reorderScan sortRange envM N r.1
  let p ← reorderScan sortRange envP N r.2
  pure ⟨m.1, p.1, m.2, p.2⟩

end

end Shamrock
