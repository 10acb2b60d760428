import Verif.Model.FmmTree
import Verif.Model.DTT
import Verif.Model.TreeOps
/-!
Self gravity of an SPH patch: the tree passes of the fast multipole method (`compute_tree_mass_moments`) and the solver
`SGSFMMPlummer`. Arithmetic is over the reals.
-/
namespace Shamrock.SelfGrav

open Shamrock (V3)
open Shamrock.Fmm

noncomputable section

/-- What the templates `compute_tree_mass_moments<.., mm_order - 1>` and `SGSFMMPlummer<.., mm_order>` use of the order `mm_order`:
`MassMoments = SymTensorCollection<Tscal, 0, mm_order - 1>`, `GravMoments = SymTensorCollection<Tscal, 1, mm_order>` and the operators. -/
structure FmmOps where
  Mass : Type
  Grav : Type
  fromVec : V3 ℝ → Mass
  zeroM : Mass
  addM : Mass → Mass → Mass
  leafM : List (V3 ℝ) → V3 ℝ → ℝ → Mass
  offsetM : Mass → V3 ℝ → V3 ℝ → Mass
  zeroG : Grav
  addG : Grav → Grav → Grav
  green : V3 ℝ → Grav
  getG : Grav → Mass → Grav
  offsetG : Grav → V3 ℝ → V3 ℝ → Grav
  contract : Mass → Grav → V3 ℝ

/-- The instantiations of the templates, for `mm_order` from 1 to 5 (index `mm_order - 1`),
/repo/src/shammodels/sph/src/modules/self_gravity/SGSFMMPlummer.cpp:606-610. -/
def fmmOps : Fin 5 → FmmOps
  | 0 => ⟨Coll00, Coll11, Coll00.from_vec, Coll00.zeros, Coll00.addAssign, leafMoments0, offset_multipole00, Coll11.zeros,
      Coll11.addAssign, green11, get_dM_mat0, offset_dM_mat11, contract_grav_moment_to_force1⟩
  | 1 => ⟨Coll01, Coll12, Coll01.from_vec, Coll01.zeros, Coll01.addAssign, leafMoments1, offset_multipole01, Coll12.zeros,
      Coll12.addAssign, green12, get_dM_mat1, offset_dM_mat12, contract_grav_moment_to_force2⟩
  | 2 => ⟨Coll02, Coll13, Coll02.from_vec, Coll02.zeros, Coll02.addAssign, leafMoments2, offset_multipole02, Coll13.zeros,
      Coll13.addAssign, green13, get_dM_mat2, offset_dM_mat13, contract_grav_moment_to_force3⟩
  | 3 => ⟨Coll03, Coll14, Coll03.from_vec, Coll03.zeros, Coll03.addAssign, leafMoments3, offset_multipole03, Coll14.zeros,
      Coll14.addAssign, green14, get_dM_mat3, offset_dM_mat14, contract_grav_moment_to_force4⟩
  | 4 => ⟨Coll04, Coll15, Coll04.from_vec, Coll04.zeros, Coll04.addAssign, leafMoments4, offset_multipole04, Coll15.zeros,
      Coll15.addAssign, green15, get_dM_mat4, offset_dM_mat15, contract_grav_moment_to_force5⟩

/-- `AABB::get_center`, /repo/src/shammath/include/shammath/AABB.hpp:174. -/
def boxCenter (b : V3 ℝ × V3 ℝ) : V3 ℝ := V3.divBy (b.1 + b.2) 2

/-- The center of a cell as read from the two buffers of boxes; `none` = out of bounds. -/
def cellCenter (t : BVH ℝ) (c : Nat) : Option (V3 ℝ) := (cellBox t c).map boxCenter

/-- `mac` (= `mac_std_opti`), /repo/src/shamtree/include/shamtree/details/multipole_acceptance_crit.hpp:22-48, 92-95. -/
def macStd (theta : ℝ) (a b : V3 ℝ × V3 ℝ) : Bool :=
  let sa := V3.divBy (a.2 - a.1) 2
  let sb := V3.divBy (b.2 - b.1) 2
  let ra := V3.divBy (a.2 + a.1) 2
  let rb := V3.divBy (b.2 + b.1) 2
  let d := ra - rb
  let dsq := d.x * d.x + d.y * d.y + d.z * d.z
  if dsq = 0 then false
  else
    let sum := max (max sa.x sa.y) sa.z + max (max sb.x sb.y) sb.z
    decide (sum * sum / dsq < theta * theta)

/-! ### Upward pass -/

/-- The kernel `fill_leafs`, /repo/src/shammodels/sph/include/shammodels/sph/modules/self_gravity/compute_tree_mass_moments.hpp:47-79;
every item writes its own entry, so that their results are listed in order. -/
def leafMomentsOf (O : FmmOps) (t : BVH ℝ) (pos : List (V3 ℝ)) (m : ℝ) (k : Nat) : Option O.Mass := do
  let ids ← forEachInLeaf t.sortMap t.redMap k
  let xs ← ids.mapM fun i => pos[i]?
  let s ← cellCenter t (k + t.nodes.length)
  pure (O.leafM xs s m)

/-- Work item `gid` of the kernel of `step`, compute_tree_mass_moments.hpp:93-131. The moments of a cell are read, and written, in one
step (in the code: component by component). The boxes do not change during the pass. -/
def momItem (O : FmmOps) (t : BVH ℝ) (gid : Nat) : List (KStep (List O.Mass) O.Mass) :=
  match t.nodes[gid]? with
  | none => [fun _ _ => none]
  | some nd =>
    match cellCenter t (leftChild t.nodes.length nd), cellCenter t (rightChild t.nodes.length nd), cellCenter t gid with
    | some cl, some cr, some c =>
      [readStep (leftChild t.nodes.length nd), readStep (rightChild t.nodes.length nd),
        combineStep (fun ql qr => O.addM (O.addM O.zeroM (O.offsetM ql cl c)) (O.offsetM qr cr c)) gid]
    | _, _, _ => [fun _ _ => none]

/-- The launches of `step`, compute_tree_mass_moments.hpp:134-136. -/
def momUp (O : FmmOps) (t : BVH ℝ) : List (List Nat) → List O.Mass → Option (List O.Mass)
  | [], m => some m
  | s :: r, m => (kLaunch t.nodes.length (momItem O t) [] s m).bind (momUp O t r)

/-- `compute_tree_mass_moments`, compute_tree_mass_moments.hpp:27-139: `old` is the content of the new buffer, `scheds` the schedules of
the `tree_depth` launches. -/
def treeMoments (O : FmmOps) (t : BVH ℝ) (pos : List (V3 ℝ)) (m : ℝ) (scheds : List (List Nat)) (old : Nat → O.Mass) :
    Option (List O.Mass) := do
  let leaves ← (List.range (t.nodes.length + 1)).mapM (leafMomentsOf O t pos m)
  let buf := (List.range t.nodes.length).map old ++ leaves
  if t.nodes.length = 0 then pure buf else momUp O t scheds buf

/-! ### Cell to cell interactions -/

/-- The body of the loop of the M2L kernel, SGSFMMPlummer.cpp:131-149. `none` = out of bounds, or failed assertion. -/
def m2lAdd (O : FmmOps) (t : BVH ℝ) (moms : List O.Mass) (m2l : List (Nat × Nat)) (cell : Nat) (sA : V3 ℝ) (d : O.Grav) (i : Nat) :
    Option O.Grav := do
  let ab ← m2l[i]?
  if ab.1 = cell then do
    let q ← moms[ab.2]?
    let sB ← cellCenter t ab.2
    pure (O.addG d (O.getG (O.green (sB - sA)) q))
  else none

/-- Work item `cell` of the M2L kernel, SGSFMMPlummer.cpp:103-153; every item writes its own entry. -/
def m2lCell (O : FmmOps) (t : BVH ℝ) (moms : List O.Mass) (m2l : List (Nat × Nat)) (off : List W32) (cell : Nat) : Option O.Grav := do
  let sA ← cellCenter t cell
  let a ← off[cell]?
  let e ← off[cell + 1]?
  (List.range' a.toNat (e.toNat - a.toNat)).foldlM (m2lAdd O t moms m2l cell sA) O.zeroG

/-! ### Downward pass -/

/-- Private state of a work item of the L2L kernel: `should_compute` so far, and the moments loaded. -/
structure LLoc (α : Type) where
  ok : Bool
  my : Option α
  left : Option α
  right : Option α

/-- An evaluation of one of the three conditions of `should_compute`, SGSFMMPlummer.cpp:201-203 (`&&` does not read further once false).
The shared buffer has, for each cell, its entries of `is_moment_complete` (0 or 1) and of `grav_moments_tree`. -/
def testStep {α : Type} (a : Nat) (want : Bool) : KStep (LLoc α) (Bool × α) := fun l m =>
  if l.ok then (m[a]?).map fun c => ({ l with ok := c.1 == want }, m) else some (l, m)

/-- `load_grav_moment(a)`, SGSFMMPlummer.cpp:181-185, 219-222. -/
def loadStep {α : Type} (a : Nat) (put : LLoc α → α → LLoc α) : KStep (LLoc α) (Bool × α) := fun l m =>
  if l.ok then (m[a]?).map fun c => (put l c.2, m) else some (l, m)

/-- `x_moment += offset_dM_mat(my_moment, s_A, s_x); store_grav_moment(x, x_moment)`, SGSFMMPlummer.cpp:224-228. -/
def storeStep {α : Type} (shift : α → α) (add : α → α → α) (a : Nat) (get : LLoc α → Option α) : KStep (LLoc α) (Bool × α) := fun l m =>
  if l.ok then do
    let my ← l.my
    let x ← get l
    let c ← m[a]?
    pure (l, m.set a (c.1, add x (shift my)))
  else some (l, m)

/-- `is_moment_complete[a] = 1`, SGSFMMPlummer.cpp:230-231. -/
def flagStep {α : Type} (a : Nat) : KStep (LLoc α) (Bool × α) := fun l m =>
  if l.ok then (m[a]?).map fun c => (l, m.set a (true, c.2)) else some (l, m)

/-- The atomic steps of work item `gid` with children `lc`, `rc`. -/
def downSteps {α : Type} (add : α → α → α) (shl shr : α → α) (gid lc rc : Nat) : List (KStep (LLoc α) (Bool × α)) :=
  [testStep gid true, testStep lc false, testStep rc false,
    loadStep gid (fun l v => { l with my := some v }), loadStep lc (fun l v => { l with left := some v }),
    loadStep rc (fun l v => { l with right := some v }),
    storeStep shl add lc (·.left), storeStep shr add rc (·.right), flagStep lc, flagStep rc]

/-- Work item `gid` of the L2L kernel, SGSFMMPlummer.cpp:168-233: the accesses to the shared buffers are separate steps, taken to be
sequentially consistent (the code has no fence between the moments and the flags). The moments of a cell are read, and written, in one
step. -/
def l2lItem (O : FmmOps) (t : BVH ℝ) (gid : Nat) : List (KStep (LLoc O.Grav) (Bool × O.Grav)) :=
  match t.nodes[gid]? with
  | none => [fun _ _ => none]
  | some nd =>
    match cellCenter t (leftChild t.nodes.length nd), cellCenter t (rightChild t.nodes.length nd), cellCenter t gid with
    | some cl, some cr, some c =>
      downSteps O.addG (fun d => O.offsetG d c cl) (fun d => O.offsetG d c cr) gid (leftChild t.nodes.length nd)
        (rightChild t.nodes.length nd)
    | _, _, _ => [fun _ _ => none]

/-- The launches, SGSFMMPlummer.cpp:167-234. -/
def l2lDown (O : FmmOps) (t : BVH ℝ) : List (List Nat) → List (Bool × O.Grav) → Option (List (Bool × O.Grav))
  | [], m => some m
  | s :: r, m => (kLaunch t.nodes.length (l2lItem O t) ⟨true, none, none, none⟩ s m).bind (l2lDown O t r)

/-- The flags are reset, the one of the root is set, and the moments propagated, SGSFMMPlummer.cpp:155-234. -/
def gravDown (O : FmmOps) (t : BVH ℝ) (scheds : List (List Nat)) (own : List O.Grav) : Option (List O.Grav) := do
  let r ← own[0]?
  let m ← l2lDown O t scheds ((own.map fun d => (false, d)).set 0 (true, r))
  pure (m.map (·.2))

/-! ### Forces -/

/-- `a += s * v` on vectors. -/
def axpy (a : V3 ℝ) (s : ℝ) (v : V3 ℝ) : V3 ℝ := ⟨a.x + s * v.x, a.y + s * v.y, a.z + s * v.z⟩

/-- L2P on one particle, SGSFMMPlummer.cpp:264-273. -/
def l2pOne (O : FmmOps) (pos : List (V3 ℝ)) (G : ℝ) (sA : V3 ℝ) (d : O.Grav) (acc : List (V3 ℝ)) (i : Nat) : Option (List (V3 ℝ)) := do
  let x ← pos[i]?
  let a ← acc[i]?
  wr acc i (axpy a (-G) (O.contract (O.fromVec (x - sA)) d))

/-- Work item `ileaf` of the L2P kernel, SGSFMMPlummer.cpp:246-274. -/
def l2pLeaf (O : FmmOps) (t : BVH ℝ) (pos : List (V3 ℝ)) (G : ℝ) (grav : List O.Grav) (acc : List (V3 ℝ)) (ileaf : Nat) :
    Option (List (V3 ℝ)) := do
  let d ← grav[ileaf + t.nodes.length]?
  let sA ← cellCenter t (ileaf + t.nodes.length)
  let ids ← forEachInLeaf t.sortMap t.redMap ileaf
  ids.foldlM (l2pOne O pos G sA d) acc

/-- The L2P kernel, SGSFMMPlummer.cpp:236-274: the items run in some order (they write the entries of the particles of their leaf only). -/
def l2p (O : FmmOps) (t : BVH ℝ) (pos : List (V3 ℝ)) (G : ℝ) (grav : List O.Grav) (order : List Nat) (acc : List (V3 ℝ)) :
    Option (List (V3 ℝ)) := order.foldlM (l2pLeaf O t pos G grav) acc

/-- The pairs (particle, cell) that the counting and filling kernels of the inverse list go through, SGSFMMPlummer.cpp:455-465, 494-511. -/
def incidences (t : BVH ℝ) : Option (List (Nat × Nat)) :=
  ((List.range (2 * t.nodes.length + 1)).mapM fun c => (forEachInCell t.sortMap t.redMap t.nodes c).map (List.map fun i => (i, c))).map
    List.flatten

/-- The inverse list: for each particle the sorted list of the cells that contain it, SGSFMMPlummer.cpp:443-519 (counts by atomic
additions, exclusive scan, `fetch_add` on the offsets, segmented sort). This is the computation of `reorder_scan_dtt_result` on the pairs
(particle, cell); simplification: the entries of the list of the code are the second components (the first ones are equal within a
segment, so that the order is the same). -/
def invertList (sortRange : Nat → Nat → List (Nat × Nat) → Option (List (Nat × Nat))) (env : ReorderEnv) (t : BVH ℝ) (npart : Nat) :
    Option (List (Nat × Nat) × List W32) := (incidences t).bind (reorderScan sortRange env npart)

/-- One direct interaction, SGSFMMPlummer.cpp:566-573; `sycl::rsqrt x` is `1 / √x`, with `none` for the infinity of `x = 0` (the
particle itself when there is no softening: the code multiplies it by the vector zero, which gives NaN). -/
def p2pOne (pos : List (V3 ℝ)) (G m eps2 : ℝ) (xi : V3 ℝ) (f : V3 ℝ) (j : Nat) : Option (V3 ℝ) := do
  let xj ← pos[j]?
  let R := xj - xi
  let r2 := R.x * R.x + R.y * R.y + R.z * R.z + eps2
  if r2 = 0 then none
  else
    let rinv := 1 / Real.sqrt r2
    pure (axpy f (G * m * rinv * rinv * rinv) R)

/-- One interaction of the list, SGSFMMPlummer.cpp:558-575. -/
def p2pInter (t : BVH ℝ) (pos : List (V3 ℝ)) (G m eps2 : ℝ) (p2p : List (Nat × Nat)) (xi : V3 ℝ) (cell : Nat) (f : V3 ℝ) (k : Nat) :
    Option (V3 ℝ) := do
  let ab ← p2p[k]?
  if ab.1 = cell then do
    let ids ← forEachInCell t.sortMap t.redMap t.nodes ab.2
    ids.foldlM (p2pOne pos G m eps2 xi) f
  else none

/-- One cell that contains the particle, SGSFMMPlummer.cpp:554-576. -/
def p2pCell (t : BVH ℝ) (pos : List (V3 ℝ)) (G m eps2 : ℝ) (p2p : List (Nat × Nat)) (off : List W32) (xi : V3 ℝ) (inv : List (Nat × Nat))
    (f : V3 ℝ) (k : Nat) : Option (V3 ℝ) := do
  let ic ← inv[k]?
  let a ← off[ic.2]?
  let e ← off[ic.2 + 1]?
  (List.range' a.toNat (e.toNat - a.toNat)).foldlM (p2pInter t pos G m eps2 p2p xi ic.2) f

/-- Work item `id_a` of the P2P kernel, SGSFMMPlummer.cpp:540-579. The entry of the acceleration is written by this item only. -/
def p2pPart (t : BVH ℝ) (pos : List (V3 ℝ)) (G m eps2 : ℝ) (p2p : List (Nat × Nat)) (off : List W32) (inv : List (Nat × Nat) × List W32)
    (acc : List (V3 ℝ)) (i : Nat) : Option (V3 ℝ) := do
  let xi ← pos[i]?
  let a ← inv.2[i]?
  let e ← inv.2[i + 1]?
  let f ← (List.range' a.toNat (e.toNat - a.toNat)).foldlM (p2pCell t pos G m eps2 p2p off xi inv.1) ⟨0, 0, 0⟩
  let ai ← acc[i]?
  pure (axpy ai 1 f)

/-- Everything the execution environment chooses in the solver. -/
structure SGEnv (O : FmmOps) where
  up : List (List Nat)
  down : List (List Nat)
  old : Nat → O.Mass
  orderL2P : List Nat
  invert : ReorderEnv

/-- `SGSFMMPlummer::_impl_evaluate_internal` on the tree `t` and the ordered result `o` of the dual tree traversal,
SGSFMMPlummer.cpp:78-581: accelerations after the call. `npart` is the number of particles, `eps` the softening length. -/
def sgsfmm (O : FmmOps) (sortRange : Nat → Nat → List (Nat × Nat) → Option (List (Nat × Nat))) (env : SGEnv O) (t : BVH ℝ) (o : DTTOrdered)
    (pos : List (V3 ℝ)) (npart : Nat) (G m eps : ℝ) (acc : List (V3 ℝ)) : Option (List (V3 ℝ)) := do
  let moms ← treeMoments O t pos m env.up env.old
  let own ← (List.range (2 * t.nodes.length + 1)).mapM (m2lCell O t moms o.m2l o.offM2l)
  let grav ← gravDown O t env.down own
  let acc ← l2p O t pos G grav env.orderL2P acc
  let inv ← invertList sortRange env.invert t npart
  (List.range npart).mapM (p2pPart t pos G m (eps * eps) o.p2p o.offP2p inv acc)

end

end Shamrock.SelfGrav
