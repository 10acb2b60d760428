import Verif.Model.Riemann
import Verif.Model.AmrGraph
/-! The finite volume update of the Ramses solver on one patch: reconstruction at the faces, fluxes of the links, sum of the fluxes of a cell, forward Euler.
Outside the Riemann solvers the arithmetic is exact (simplification: rational numbers, no rounding). The blocks are those of the patch followed by its ghosts,
eight cells each. -/
namespace Shamrock.Fv
open Amr (Box NGraph coordX putStep)

/-- `AABB<f64_3>`. -/
structure FBox where
  lo : V3 ℚ
  hi : V3 ℚ
deriving DecidableEq

/-- `lower_flt`, /repo/src/shammodels/ramses/src/modules/ComputeCellAABB.cpp:58-69. -/
def blockLower (dx : ℚ) (b : Box) : V3 ℚ := ⟨b.lo.x * dx, b.lo.y * dx, b.lo.z * dx⟩

/-- `block_cell_size.x()`, ComputeCellAABB.cpp:61-68 (two cells per side). -/
def blockCellSize (dx : ℚ) (b : Box) : ℚ := (b.hi.x * dx - b.lo.x * dx) * (1 / 2)

/-- `get_cell_aabb`, /repo/src/shammodels/ramses/src/modules/SumFluxHydro.cpp:26-46 and InterpolateToFace.cpp:38-56, from the block of the cell. -/
def cellAabb (lower : V3 ℚ) (size : ℚ) (i : Nat) : FBox :=
  let lo : V3 ℚ := ⟨lower.x + (coordX i).1 * size, lower.y + (coordX i).2.1 * size, lower.z + (coordX i).2.2 * size⟩
  ⟨lo, ⟨lo.x + size, lo.y + size, lo.z + size⟩⟩

/-- `get_cell_aabb(id)`: the reads of the two buffers. -/
def cellAt (dx : ℚ) (bs : List Box) (id : Nat) : Option FBox :=
  (bs[id / 8]?).map fun b => cellAabb (blockLower dx b) (blockCellSize dx b) (id % 8)

/-- `AABB::get_intersect`, AABB.hpp:234-236. -/
def meet (a b : FBox) : FBox :=
  ⟨⟨max a.lo.x b.lo.x, max a.lo.y b.lo.y, max a.lo.z b.lo.z⟩, ⟨min a.hi.x b.hi.x, min a.hi.y b.hi.y, min a.hi.z b.hi.z⟩⟩

/-- `get_face_surface`, SumFluxHydro.cpp:48-73: the extents under half a grid unit are replaced by one. -/
def faceSurface (dx : ℚ) (a b : FBox) : ℚ :=
  let f := meet a b
  let fix : ℚ → ℚ := fun d => if d < dx / 2 then 1 else d
  fix (f.hi.x - f.lo.x) * fix (f.hi.y - f.lo.y) * fix (f.hi.z - f.lo.z)

/-- `AABB::get_center`, AABB.hpp:174. -/
def center (a : FBox) : V3 ℚ := ⟨(a.lo.x + a.hi.x) / 2, (a.lo.y + a.hi.y) / 2, (a.lo.z + a.hi.z) / 2⟩

/-- One of the two results of `GetShift::get_shifts`, InterpolateToFace.cpp:58-71: from the centre of cell `a` to that of the face. -/
def shiftTo (face a : FBox) : V3 ℚ :=
  let f := center face
  let c := center a
  ⟨f.x - c.x, f.y - c.y, f.z - c.z⟩

def dot (a b : V3 ℚ) : ℚ := a.x * b.x + a.y * b.y + a.z * b.z

/-- The fields of a cell read by the reconstruction: `rho`, `P`, `vel` and their slopes. -/
structure CellIn where
  rho : ℚ
  press : ℚ
  vel : V3 ℚ
  gradRho : V3 ℚ
  gradP : V3 ℚ
  dxv : V3 ℚ
  dyv : V3 ℚ
  dzv : V3 ℚ
deriving DecidableEq

/-- One side of `RhoInterpolate`, `VelInterpolate`, `PressInterpolate::get_link_field_val`, InterpolateToFace.cpp:119-153, 228-263, 341-373 (three kernels on
three buffers in the code). The assertions on the sign of the pressure are not modelled. -/
def faceState (gamma dt : ℚ) (c : CellIn) (s : V3 ℚ) : PState :=
  let div := c.dxv.x + c.dyv.y + c.dzv.z
  let acc : V3 ℚ := ⟨-(c.vel.x * c.dxv.x + c.vel.y * c.dyv.x + c.vel.z * c.dzv.x + c.gradP.x / c.rho),
    -(c.vel.x * c.dxv.y + c.vel.y * c.dyv.y + c.vel.z * c.dzv.y + c.gradP.y / c.rho),
    -(c.vel.x * c.dxv.z + c.vel.y * c.dyv.z + c.vel.z * c.dzv.z + c.gradP.z / c.rho)⟩
  ⟨c.rho + dot c.gradRho s + -(dot c.vel c.gradRho + c.rho * div) * dt,
    c.press + dot c.gradP s + -(gamma * c.press * div + dot c.vel c.gradP) * dt,
    ⟨c.vel.x + (s.x * c.dxv.x + s.y * c.dyv.x + s.z * c.dzv.x) + acc.x * dt,
      c.vel.y + (s.x * c.dxv.y + s.y * c.dyv.y + s.z * c.dzv.y) + acc.y * dt,
      c.vel.z + (s.x * c.dxv.z + s.y * c.dyv.z + s.z * c.dzv.z) + acc.z * dt⟩⟩

/-- `get_link_field_val`: the states on both sides of the face between the cells `a` and `b`. -/
def linkVal (gamma dt dx : ℚ) (bs : List Box) (u : List CellIn) (a b : Nat) : Option (PState × PState) := do
  let A ← cellAt dx bs a
  let B ← cellAt dx bs b
  let ua ← u[a]?
  let ub ← u[b]?
  let face := meet A B
  pure (faceState gamma dt ua (shiftTo face A), faceState gamma dt ub (shiftTo face B))

/-- `for_each_object_link_id`, /repo/src/shammodels/common/include/shammodels/common/amr/NeighGraph.hpp:77-83: neighbour and number of the link. -/
def forEachLink (g : NGraph) (id : Nat) : Option (List (Nat × Nat)) := do
  let a ← g.offset[id]?
  let b ← g.offset[id + 1]?
  (List.range' a.toNat (b.toNat - a.toNat)).mapM fun s => (g.links[s]?).map fun l => (l, s)

/-- Work item of the link kernels, InterpolateToFace.cpp:742-746. -/
def linkItem {α : Type} (g : NGraph) (f : Nat → Nat → Option α) (a : Nat) : List (KStep Unit α) :=
  match forEachLink g a with
  | none => [fun _ _ => none]
  | some ls => ls.map fun (b, s) => match f a b with
    | some v => putStep s v
    | none => fun _ _ => none

/-- A link field, InterpolateToFace.cpp:737-746: a buffer of `link_count` entries, written by one item per cell. -/
def linkField {α : Type} (junk : Nat → α) (sched : List Nat) (g : NGraph) (f : Nat → Nat → Option α) : Option (List α) :=
  kLaunch g.objs (linkItem g f) () sched ((List.range g.count.toNat).map junk)

/-- `NodeComputeFluxGasDirMode`, /repo/src/shammodels/ramses/src/modules/NodeComputeFlux.cpp:48-83: one item per link, which writes its own entry. -/
def linkFlux (F : PState → PState → CState) (l : List (PState × PState)) : List CState := l.map fun (p, q) => F p q

/-- `dtrho -= flux * S` etc., SumFluxHydro.cpp:125-127. -/
def CState.subMul (a f : CState) (s : ℚ) : CState :=
  ⟨a.rho - f.rho * s, a.rhoe - f.rhoe * s, ⟨a.rv.x - f.rv.x * s, a.rv.y - f.rv.y * s, a.rv.z - f.rv.z * s⟩⟩

/-- `dtrho /= V_i` etc., SumFluxHydro.cpp:138-140. -/
def CState.divS (a : CState) (v : ℚ) : CState := ⟨a.rho / v, a.rhoe / v, ⟨a.rv.x / v, a.rv.y / v, a.rv.z / v⟩⟩

/-- `add_flux`, SumFluxHydro.cpp:118-129. -/
def addFlux (dx : ℚ) (bs : List Box) (id : Nat) (g : NGraph) (flux : List CState) (acc : CState) : Option CState := do
  let ls ← forEachLink g id
  ls.foldlM (fun acc (b, s) => do
    let A ← cellAt dx bs id
    let B ← cellAt dx bs b
    let f ← flux[s]?
    pure (acc.subMul f (faceSurface dx A B))) acc

/-- `KernelSumFluxHydro::operator()`, SumFluxHydro.cpp:77-145. -/
def cellRate (dx : ℚ) (bs : List Box) (g : Nat → NGraph) (flux : Nat → List CState) (id : Nat) : Option CState := do
  let b ← bs[id / 8]?
  let v := blockCellSize dx b
  let d ← (List.range 6).foldlM (fun acc dir => addFlux dx bs id (g dir) (flux dir) acc) ⟨0, 0, ⟨0, 0, 0⟩⟩
  pure (d.divS (v * v * v))

/-- The solver sequence on one patch, /repo/src/shammodels/ramses/src/Solver.cpp:1120-1484 (face states, fluxes, sums): the rates of change of the first `n`
cells (those of the patch). `F dir` is the flux of direction `dir`; `junk`, `sched` are the old contents and the schedule of the link kernels. -/
def fvRates (F : Nat → PState → PState → CState) (gamma dtI dx : ℚ) (junk : Nat → PState × PState) (sched : Nat → List Nat) (bs : List Box) (g : Nat → NGraph)
    (u : List CellIn) (n : Nat) : Option (List CState) := do
  let fl ← (List.range 6).mapM fun dir => (linkField junk (sched dir) (g dir) (linkVal gamma dtI dx bs u)).map (linkFlux (F dir))
  (List.range n).mapM fun id => cellRate dx bs g (fun dir => fl.getD dir []) id

/-- `forward_euler`, /repo/src/shammodels/ramses/src/modules/TimeIntegrator.cpp:66-73. -/
def euler (dt : ℚ) (old rate : List CState) : List CState :=
  List.zipWith (fun a r => ⟨a.rho + dt * r.rho, a.rhoe + dt * r.rhoe, ⟨a.rv.x + dt * r.rv.x, a.rv.y + dt * r.rv.y, a.rv.z + dt * r.rv.z⟩⟩) old rate

end Shamrock.Fv
