import Verif.Model.FvMesh
/-! Slopes of the fields of the Ramses solver and the step of a patch: conserved to primitive variables, limited gradients, rates, forward Euler. The arithmetic
is exact (simplification: rational numbers; `x / 0` is `0` here, where the code gets an infinity or a NaN that its next comparison turns into a slope `0`). -/
namespace Shamrock.Fv
open Amr (Box NGraph)

/-- `SlopeMode`, /repo/src/shammodels/ramses/include/shammodels/ramses/config/enum_SlopeMode.hpp. -/
inductive SlopeMode | none | vanLeerF | vanLeerStd | vanLeerSym | minmod
deriving DecidableEq

/-- `slope_function_van_leer_f_form`, /repo/src/shammodels/ramses/include/shammodels/ramses/modules/SlopeLimitedGradientUtilities.hpp:31-50. -/
def vanLeerF (sL sR : ℚ) : ℚ :=
  let st := sL + sR
  let f := sL / st
  let f := if f ≥ 0 ∧ f ≤ 1 then f else 0
  4 * f * (1 - f) * st * (1 / 2)

/-- `van_leer_slope`, /repo/src/shammath/include/shammath/slopeLimiter.hpp:39-46. -/
def vanLeerStd (f g : ℚ) : ℚ :=
  let tmp := f * g
  if tmp > 0 then 2 * tmp / (f + g) else 0

/-- `sycl::sign`. -/
def sgn (x : ℚ) : ℚ := if x > 0 then 1 else if x < 0 then -1 else 0

/-- `van_leer_slope_symetric`, slopeLimiter.hpp:49-62. -/
def vanLeerSym (sR sL : ℚ) : ℚ :=
  let tmp := |sR| * |sL|
  if tmp > 0 then tmp * (sgn sL + sgn sR) / (|sL| + |sR|) else 0

/-- `minmod`, slopeLimiter.hpp:65-68. -/
def minmod (sR sL : ℚ) : ℚ :=
  let r := sL / sR
  (if r > 0 then (if r < 1 then r else 1) else 0) * sR

/-- `slope_function`, SlopeLimitedGradientUtilities.hpp:93-114 (on vectors: component by component). -/
def slopeFn : SlopeMode → ℚ → ℚ → ℚ
  | .none, _, _ => 0
  | .vanLeerF, sL, sR => vanLeerF sL sR
  | .vanLeerStd, sL, sR => vanLeerStd sL sR
  | .vanLeerSym, sL, sR => vanLeerSym sL sR
  | .minmod, sL, sR => minmod sL sR

/-- `for_each_object_link_cnt`, /repo/src/shammodels/common/include/shammodels/common/amr/NeighGraph.hpp:86-93: the arguments of `func_it` and the result. -/
def forEachLinkCnt (g : NGraph) (id : Nat) : Option (List Nat × Nat) := do
  let a ← g.offset[id]?
  let b ← g.offset[id + 1]?
  let ls ← (List.range' a.toNat (b.toNat - a.toNat)).mapM fun s => g.links[s]?
  pure (ls, (b - a).toNat)

/-- The factor `fac` of the distance between the centres, SlopeLimitedGradientUtilities.hpp:156-165. -/
def sizeFac (neigh cur : ℚ) : ℚ :=
  let fac : ℚ := 1
  let fac := if neigh > cur then 3 / 2 else fac
  if neigh < cur then 3 / 4 else fac

/-- `get_gradient_dir`, SlopeLimitedGradientUtilities.hpp:149-172. -/
def gradDir (sizes : List ℚ) (g : NGraph) (field : List ℚ) (id dir : Nat) : Option ℚ := do
  let cur ← sizes[id / 8]?
  let (ls, cnt) ← forEachLinkCnt g id
  let acc ← ls.foldlM (fun acc b => do
    let neigh ← sizes[b / 8]?
    let fb ← field[b]?
    let fa ← field[id]?
    let invDist := 1 / (sizeFac neigh cur * cur)
    let sign : ℚ := 1 - 2 * ((dir % 2 : Nat) : ℚ)
    pure (acc + sign * invDist * (fb - fa))) 0
  pure (if cnt > 0 then acc / (cnt : ℚ) else 0)

/-- `get_3d_grad`, SlopeLimitedGradientUtilities.hpp:134-184. -/
def grad3 (mode : SlopeMode) (sizes : List ℚ) (g : Nat → NGraph) (field : List ℚ) (id : Nat) : Option (V3 ℚ) := do
  let xm ← gradDir sizes (g 1) field id 1
  let xp ← gradDir sizes (g 0) field id 0
  let ym ← gradDir sizes (g 3) field id 3
  let yp ← gradDir sizes (g 2) field id 2
  let zm ← gradDir sizes (g 5) field id 5
  let zp ← gradDir sizes (g 4) field id 4
  pure ⟨slopeFn mode xm xp, slopeFn mode ym yp, slopeFn mode zm zp⟩

/-- The kernels of `ConsToPrimGas` and of the slope limited gradients, /repo/src/shammodels/ramses/src/modules/ConsToPrimGas.cpp:51-69 and
SlopeLimitedGradient.cpp:66-100, 151-188: the fields of each cell of the patch and of its ghosts (`block_counts_with_ghost`, Solver.cpp:1024-1090). The vectors are
treated component by component. The assertion on the sign of the pressure is not modelled. -/
def fvCells (A : Ar) (gamma dx : ℚ) (mode : SlopeMode) (bs : List Box) (g : Nat → NGraph) (cons : List CState) : Option (List CellIn) :=
  let sizes := bs.map (blockCellSize dx)
  let prim := cons.map (A.consToPrim gamma)
  let grad := grad3 mode sizes g
  (List.range cons.length).mapM fun id => do
    let p ← prim[id]?
    let gr ← grad (prim.map (·.rho)) id
    let gp ← grad (prim.map (·.press)) id
    let gx ← grad (prim.map (·.vel.x)) id
    let gy ← grad (prim.map (·.vel.y)) id
    let gz ← grad (prim.map (·.vel.z)) id
    pure ⟨p.rho, p.press, p.vel, gr, gp, ⟨gx.x, gy.x, gz.x⟩, ⟨gx.y, gy.y, gz.y⟩, ⟨gx.z, gy.z, gz.z⟩⟩

/-- The step of a patch, /repo/src/shammodels/ramses/src/Solver.cpp:1024-1484 and TimeIntegrator.cpp:66-73, from the merged conserved fields; the first `n` cells
are those of the patch. -/
def patchStep (A : Ar) (F : Nat → PState → PState → CState) (gamma dtI dt dx : ℚ) (mode : SlopeMode) (junk : Nat → PState × PState) (sched : Nat → List Nat)
    (bs : List Box) (g : Nat → NGraph) (cons : List CState) (n : Nat) : Option (List CState) := do
  let u ← fvCells A gamma dx mode bs g cons
  let rates ← fvRates F gamma dtI dx junk sched bs g u n
  pure (euler dt (cons.take n) rates)

end Shamrock.Fv
