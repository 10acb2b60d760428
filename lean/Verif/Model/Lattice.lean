import Verif.Model.Setup
import Mathlib.Analysis.SpecialFunctions.Pow.Real
/-! The crystal lattices: /repo/src/shammath/include/shammath/crystalLattice.hpp. Scalars are real numbers (no rounding); `i32(x)` truncates towards zero and is
undefined outside the range of i32; the i32 sums and differences of indices are not checked for overflow. -/
namespace Shamrock.Setup

/-- `i32(x)`. -/
noncomputable def toI32 (x : ℝ) : Option Int :=
  let t : Int := if 0 ≤ x then ⌊x⌋ else ⌈x⌉
  if -(2 ^ 31) ≤ t ∧ t < 2 ^ 31 then some t else none

/-- `LatticeHCP::generator`, crystalLattice.hpp:68-80 (`sycl::abs(·) % 2`). -/
noncomputable def hcp (dr : ℝ) (i j k : Int) : ℝ × ℝ × ℝ :=
  (dr * (2 * i + (((j + k).natAbs % 2 : Nat) : ℝ)), dr * (√3 * (j + (1 / 3) * ((k.natAbs % 2 : Nat) : ℝ))), dr * (2 * √6 * k / 3))

/-- `LatticeCubic::generator`, crystalLattice.hpp:426-435. -/
noncomputable def cubic (dr : ℝ) (i j k : Int) : ℝ × ℝ × ℝ := (dr * i, dr * j, dr * k)

/-- `can_make_periodic_box`, crystalLattice.hpp:90-106 (C++ `%` truncates). -/
def canMakePeriodic (cmin cmax : Int × Int × Int) : Bool :=
  if cmax.1 - cmin.1 < 2 then false
  else if (cmax.2.1 + cmin.2.1).tmod 2 ≠ 0 then false
  else if (cmax.2.2 + cmin.2.2).tmod 2 ≠ 0 then false
  else true

/-- `get_periodic_box`, crystalLattice.hpp:116-137. -/
noncomputable def periodicBox (dr : ℝ) (cmin cmax : Int × Int × Int) : Res ((ℝ × ℝ × ℝ) × (ℝ × ℝ × ℝ)) :=
  if canMakePeriodic cmin cmax then
    .ok ((2 * cmin.1 * dr, √3 * cmin.2.1 * dr, 2 * √6 * cmin.2.2 / 3 * dr), (2 * cmax.1 * dr, √3 * cmax.2.1 * dr, 2 * √6 * cmax.2.2 / 3 * dr))
  else .throws

/-- `LatticeHCP::get_box_index_bounds`, crystalLattice.hpp:139-163. -/
noncomputable def hcpBounds (dr : ℝ) (bmin bmax : ℝ × ℝ × ℝ) : Option ((Int × Int × Int) × (Int × Int × Int)) := do
  let x0 ← toI32 (bmin.1 / 2 / dr)
  let y0 ← toI32 (bmin.2.1 / √3 / dr)
  let z0 ← toI32 (bmin.2.2 / (2 * √6 / 3) / dr)
  let x1 ← toI32 (bmax.1 / 2 / dr)
  let y1 ← toI32 (bmax.2.1 / √3 / dr)
  let z1 ← toI32 (bmax.2.2 / (2 * √6 / 3) / dr)
  some ((x0 - 1, y0 - 1, z0 - 1), (x1 + 1, y1 + 1, z1 + 1))

/-- `LatticeCubic::get_box_index_bounds`, crystalLattice.hpp:437-460. -/
noncomputable def cubicBounds (dr : ℝ) (bmin bmax : ℝ × ℝ × ℝ) : Option ((Int × Int × Int) × (Int × Int × Int)) := do
  let x0 ← toI32 (bmin.1 / dr)
  let y0 ← toI32 (bmin.2.1 / dr)
  let z0 ← toI32 (bmin.2.2 / dr)
  let x1 ← toI32 (bmax.1 / dr)
  let y1 ← toI32 (bmax.2.1 / dr)
  let z1 ← toI32 (bmax.2.2 / dr)
  some ((x0 - 1, y0 - 1, z0 - 1), (x1 + 1, y1 + 1, z1 + 1))

/-- `nearest_periodic_box_indices`, crystalLattice.hpp:172-199. -/
def nearestPeriodic (cmin cmax : Int × Int × Int) : (Int × Int × Int) × (Int × Int × Int) :=
  (cmin, (if cmax.1 - cmin.1 < 2 then cmax.1 + 1 else cmax.1, if (cmax.2.1 + cmin.2.1).tmod 2 ≠ 0 then cmax.2.1 + 1 else cmax.2.1,
    if (cmax.2.2 + cmin.2.2).tmod 2 ≠ 0 then cmax.2.2 + 1 else cmax.2.2))

/-- `get_ideal_hcp_box`, crystalLattice.hpp:387-402. -/
noncomputable def idealBox (dr : ℝ) (bmin bmax : ℝ × ℝ × ℝ) : Res ((ℝ × ℝ × ℝ) × (ℝ × ℝ × ℝ)) :=
  match hcpBounds dr bmin bmax with
  | none => .ub
  | some (a, b) => periodicBox dr (nearestPeriodic a b).1 (nearestPeriodic a b).2

/-- `Patch::is_in_patch_converted`, /repo/src/shamrock/include/shamrock/patch/Patch.hpp:210-215. -/
def inBoxC (p lo hi : ℝ × ℝ × ℝ) : Prop := (lo.1 ≤ p.1 ∧ p.1 < hi.1) ∧ (lo.2.1 ≤ p.2.1 ∧ p.2.1 < hi.2.1) ∧ (lo.2.2 ≤ p.2.2 ∧ p.2.2 < hi.2.2)

end Shamrock.Setup
