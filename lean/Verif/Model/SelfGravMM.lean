import Verif.Model.SelfGrav
/-!
Self gravity of an SPH patch by one tree traversal per particle (`SGMMPlummer`) or per leaf (`SGFMMPlummer`). Arithmetic is over the reals.
-/
namespace Shamrock.SelfGrav

open Shamrock (V3)
open Shamrock.Fmm

noncomputable section

/-- The traversal condition: true = the cell is opened. `sizeA` and `sA` are the half size and the center of the receiver.
/repo/src/shammodels/sph/src/modules/self_gravity/SGFMMPlummer.cpp:109-129; with `sizeA = 0`, SGMMPlummer.cpp:102-122. A cell without a box
(read out of bounds) is rejected here: simplification; the box buffers have one entry per cell (`C52_build`). -/
def sgOpen (t : BVH ℝ) (theta sizeA : ℝ) (sA : V3 ℝ) (id : Nat) : Bool :=
  match cellBox t id with
  | none => false
  | some b =>
    let d := b.2 - b.1
    let sizeB := max (max d.x d.y) d.z / 2
    let r := boxCenter b - sA
    let rsq := r.x * r.x + r.y * r.y + r.z * r.z
    decide ((if rsq = 0 then theta * 2 else (sizeB + sizeA) * (1 / Real.sqrt rsq)) > theta)

/-- The square of the length of a vector. -/
def lenSq (r : V3 ℝ) : ℝ := r.x * r.x + r.y * r.y + r.z * r.z

/-- One direct interaction, SGMMPlummer.cpp:127-131; as `p2pOne`, without the factor `G`. -/
def mmDirect (pos : List (V3 ℝ)) (m eps2 : ℝ) (xi : V3 ℝ) (f : V3 ℝ) (j : Nat) : Option (V3 ℝ) := do
  let xj ← pos[j]?
  let R := xj - xi
  let r2 := lenSq R + eps2
  if r2 = 0 then none
  else
    let rinv := 1 / Real.sqrt r2
    pure (axpy f (m * rinv * rinv * rinv) R)

/-- A callback of the traversal of `SGMMPlummer`, SGMMPlummer.cpp:123-153. `none` = out of bounds, or division by zero in the Green
function. -/
def mmEvent (O : FmmOps) (t : BVH ℝ) (pos : List (V3 ℝ)) (moms : List O.Mass) (m eps2 : ℝ) (xi f : V3 ℝ) : TEvent → Option (V3 ℝ)
  | .found id => do
    let ids ← forEachInLeaf t.sortMap t.redMap (u32sub id t.nodes.length)
    ids.foldlM (mmDirect pos m eps2 xi) f
  | .excluded id => do
    let sB ← cellCenter t id
    let q ← moms[id]?
    let r := sB - xi
    if lenSq r = 0 then none else pure (axpy f (-1) (O.contract q (O.green r)))

/-- Work item `i` of the kernel of `SGMMPlummer`, SGMMPlummer.cpp:82-156; it writes its own entry only. `D` is the size of the stack. -/
def mmPart (O : FmmOps) (t : BVH ℝ) (D : Nat) (pos : List (V3 ℝ)) (moms : List O.Mass) (theta G m eps2 : ℝ) (acc : List (V3 ℝ)) (i : Nat) :
    Option (V3 ℝ) := do
  let xi ← pos[i]?
  let ev ← stackTraversal D t.nodes (sgOpen t theta 0 xi) 0 (2 * t.nodes.length + 2)
  let f ← ev.foldlM (mmEvent O t pos moms m eps2 xi) ⟨0, 0, 0⟩
  let a ← acc[i]?
  pure (axpy a G f)

/-- `SGMMPlummer::_impl_evaluate_internal` on the tree `t`, SGMMPlummer.cpp:57-157: accelerations after the call. -/
def sgmm (O : FmmOps) (t : BVH ℝ) (D : Nat) (up : List (List Nat)) (old : Nat → O.Mass) (pos : List (V3 ℝ)) (npart : Nat)
    (theta G m eps : ℝ) (acc : List (V3 ℝ)) : Option (List (V3 ℝ)) := do
  let moms ← treeMoments O t pos m up old
  (List.range npart).mapM (mmPart O t D pos moms theta G m (eps * eps) acc)

/-- The inner statement of the direct interactions of two leaves, SGFMMPlummer.cpp:135-139. -/
def fmmDirect (pos : List (V3 ℝ)) (G m eps2 : ℝ) (j : Nat) (acc : List (V3 ℝ)) (i : Nat) : Option (List (V3 ℝ)) := do
  let xi ← pos[i]?
  let ai ← acc[i]?
  let a ← p2pOne pos G m eps2 xi ai j
  wr acc i a

/-- A callback of the traversal of `SGFMMPlummer`, SGFMMPlummer.cpp:130-161. The state is the local expansion and the accelerations. -/
def fmmEvent (O : FmmOps) (t : BVH ℝ) (pos : List (V3 ℝ)) (moms : List O.Mass) (G m eps2 : ℝ) (ileaf : Nat) (sA : V3 ℝ)
    (s : O.Grav × List (V3 ℝ)) : TEvent → Option (O.Grav × List (V3 ℝ))
  | .found id => do
    let js ← forEachInLeaf t.sortMap t.redMap (u32sub id t.nodes.length)
    let ids ← forEachInLeaf t.sortMap t.redMap ileaf
    let acc ← js.foldlM (fun acc j => ids.foldlM (fmmDirect pos G m eps2 j) acc) s.2
    pure (s.1, acc)
  | .excluded id => do
    let sB ← cellCenter t id
    let q ← moms[id]?
    let r := sB - sA
    if lenSq r = 0 then none else pure (O.addG s.1 (O.getG (O.green r) q), s.2)

/-- Work item `ileaf` of the kernel of `SGFMMPlummer`, SGFMMPlummer.cpp:82-176; it writes the entries of the particles of its leaf only. -/
def fmmLeaf (O : FmmOps) (t : BVH ℝ) (D : Nat) (pos : List (V3 ℝ)) (moms : List O.Mass) (theta G m eps2 : ℝ) (acc : List (V3 ℝ)) (ileaf : Nat) :
    Option (List (V3 ℝ)) := do
  let b ← cellBox t (ileaf + t.nodes.length)
  let sA := boxCenter b
  let d := b.2 - b.1
  let sizeA := max (max d.x d.y) d.z / 2
  let ev ← stackTraversal D t.nodes (sgOpen t theta sizeA sA) 0 (2 * t.nodes.length + 2)
  let s ← ev.foldlM (fmmEvent O t pos moms G m eps2 ileaf sA) (O.zeroG, acc)
  let ids ← forEachInLeaf t.sortMap t.redMap ileaf
  ids.foldlM (l2pOne O pos G sA s.1) s.2

/-- `SGFMMPlummer::_impl_evaluate_internal` on the tree `t`, SGFMMPlummer.cpp:53-178; `order` is the order in which the work items run. -/
def sgfmm (O : FmmOps) (t : BVH ℝ) (D : Nat) (up : List (List Nat)) (old : Nat → O.Mass) (order : List Nat) (pos : List (V3 ℝ))
    (theta G m eps : ℝ) (acc : List (V3 ℝ)) : Option (List (V3 ℝ)) := do
  let moms ← treeMoments O t pos m up old
  order.foldlM (fmmLeaf O t D pos moms theta G m (eps * eps)) acc

end

end Shamrock.SelfGrav
