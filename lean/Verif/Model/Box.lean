import Verif.Model.Patch
import Mathlib.Order.Lattice
import Mathlib.Order.Defs.LinearOrder
import Mathlib.Algebra.Order.Field.Basic
/-! Boxes: /repo/src/shammath/include/shammath/AABB.hpp, CoordRange.hpp, intervals.hpp, for three components of a linearly ordered type
(integers, or floating point numbers without NaN). -/
namespace Shamrock

/-- `AABB<T>` (AABB.hpp:98-105) and `CoordRange<T>` (CoordRange.hpp:28-34). -/
structure Box (F : Type) where
  lower : V3 F
  upper : V3 F

section
variable {F : Type} [LinearOrder F]

/-- `sham::max` on vectors: component wise, /repo/src/shambackends/include/shambackends/math.hpp:525-528. -/
def V3.vmax (a b : V3 F) : V3 F := ⟨max a.x b.x, max a.y b.y, max a.z b.z⟩

/-- `sham::min` on vectors, math.hpp:520-523. -/
def V3.vmin (a b : V3 F) : V3 F := ⟨min a.x b.x, min a.y b.y, min a.z b.z⟩

/-- `vec_compare_leq`, math.hpp:204-207. -/
def vecLeq (v w : V3 F) : Bool := decide (v.x ≤ w.x) && decide (v.y ≤ w.y) && decide (v.z ≤ w.z)

/-- `vec_compare_geq`, math.hpp:164-167. -/
def vecGeq (v w : V3 F) : Bool := decide (v.x ≥ w.x) && decide (v.y ≥ w.y) && decide (v.z ≥ w.z)

/-- `vec_compare_g`, math.hpp:244-247. -/
def vecG (v w : V3 F) : Bool := decide (v.x > w.x) && decide (v.y > w.y) && decide (v.z > w.z)

/-- `AABB::get_intersect` AABB.hpp:234-236 and `CoordRange::get_intersect` CoordRange.hpp:69-71. -/
def Box.intersect (a b : Box F) : Box F := ⟨a.lower.vmax b.lower, a.upper.vmin b.upper⟩

/-- `CoordRange::get_union`, CoordRange.hpp:73-75. -/
def Box.union (a b : Box F) : Box F := ⟨a.lower.vmin b.lower, a.upper.vmax b.upper⟩

/-- `AABB::contains(AABB)`, AABB.hpp:244-248. -/
def Box.contains (a b : Box F) : Bool := vecLeq a.lower b.lower && vecGeq a.upper b.upper

/-- `AABB::contains_asymmetric`, AABB.hpp:256-258. -/
def Box.containsAsym (a : Box F) (p : V3 F) : Bool := vecLeq a.lower p && vecG a.upper p

/-- `is_in_half_open`, intervals.hpp:36-38. -/
def isInHalfOpen1 (val mn mx : F) : Bool := decide (val ≥ mn) && decide (val < mx)

/-- `CoordRange::contain_pos`, CoordRange.hpp:77 with intervals.hpp:66-70. -/
def Box.containPos (a : Box F) (p : V3 F) : Bool :=
  isInHalfOpen1 p.x a.lower.x a.upper.x && isInHalfOpen1 p.y a.lower.y a.upper.y && isInHalfOpen1 p.z a.lower.z a.upper.z

/-- `is_not_empty`, AABB.hpp:268-270 and CoordRange.hpp:79. -/
def Box.isNotEmpty (a : Box F) : Bool := vecGeq a.upper a.lower

/-- `is_volume_not_null`, AABB.hpp:280-282. -/
def Box.isVolumeNotNull (a : Box F) : Bool := vecG a.upper a.lower

/-- `clamp_coord`, AABB.hpp:320-322: `sycl::clamp` is `min(max(x, lo), hi)`, undefined for `lo > hi`. -/
def Box.clampCoord (a : Box F) (p : V3 F) : V3 F := (p.vmax a.lower).vmin a.upper

/-- `domain_are_connected`, intervals.hpp:155-158 and 192-203. -/
def domainAreConnected (a b : Box F) : Bool :=
  decide (max a.lower.x b.lower.x ≤ min a.upper.x b.upper.x) && decide (max a.lower.y b.lower.y ≤ min a.upper.y b.upper.y) &&
  decide (max a.lower.z b.lower.z ≤ min a.upper.z b.upper.z)

/-- `domain_have_intersect`, intervals.hpp:219-222 and 257-268. -/
def domainHaveIntersect (a b : Box F) : Bool :=
  decide (max a.lower.x b.lower.x < min a.upper.x b.upper.x) && decide (max a.lower.y b.lower.y < min a.upper.y b.upper.y) &&
  decide (max a.lower.z b.lower.z < min a.upper.z b.upper.z)

end

/-- `AABB::intersect_ray`, AABB.hpp:355-378, in exact arithmetic; `inv` is `inv_direction`. The initial `tmin = -∞`, `tmax = +∞` are
absorbed by the first comparison. -/
def Box.intersectRay {K : Type} [Field K] [LinearOrder K] (a : Box K) (origin inv : V3 K) : Bool :=
  let tx1 := (a.lower.x - origin.x) * inv.x
  let tx2 := (a.upper.x - origin.x) * inv.x
  let tmin := min tx1 tx2
  let tmax := max tx1 tx2
  let ty1 := (a.lower.y - origin.y) * inv.y
  let ty2 := (a.upper.y - origin.y) * inv.y
  let tmin := max tmin (min ty1 ty2)
  let tmax := min tmax (max ty1 ty2)
  let tz1 := (a.lower.z - origin.z) * inv.z
  let tz2 := (a.upper.z - origin.z) * inv.z
  let tmin := max tmin (min tz1 tz2)
  let tmax := min tmax (max tz1 tz2)
  decide (tmax ≥ tmin)

end Shamrock
