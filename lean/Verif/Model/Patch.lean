import Verif.Model.Integer
/-! Model of patch coordinates, patch splitting/merging, the base patch grid and the patch → domain coordinate transform.

All `u64` arithmetic is written with explicit wrap around (`u64add`, `u64sub`, `u64mul`). -/
namespace Shamrock

/-- C++ `u64` addition. -/
def u64add (a b : Nat) : Nat := (a + b) % 2 ^ 64
/-- C++ `u64` subtraction. -/
def u64sub (a b : Nat) : Nat := (a + 2 ^ 64 - b) % 2 ^ 64
/-- C++ `u64` multiplication. -/
def u64mul (a b : Nat) : Nat := (a * b) % 2 ^ 64
/-- `u64_max`. -/
def u64max : Nat := 2 ^ 64 - 1
/-- `u32_max`. -/
def u32max : Nat := 2 ^ 32 - 1

/-- `std::array<u64, 3>`. -/
structure V3 (α : Type) where
  x : α
  y : α
  z : α
deriving DecidableEq, Repr

/-- `PatchCoord<3>`, /repo/src/shamrock/include/shamrock/patch/PatchCoord.hpp:24-29 (inclusive bounds). -/
structure PatchCoord where
  cmin : V3 Nat
  cmax : V3 Nat
deriving DecidableEq, Repr

/-- One component of `PatchCoord::get_split_coord`, PatchCoord.hpp:40-42. -/
def splitCoord1 (mn mx : Nat) : Nat := u64add (u64sub (u64add (u64sub mx mn) 1 / 2) 1) mn

/-- `PatchCoord::get_split_coord`, PatchCoord.hpp:36-43. -/
def getSplitCoord (c : PatchCoord) : V3 Nat :=
  ⟨splitCoord1 c.cmin.x c.cmax.x, splitCoord1 c.cmin.y c.cmax.y, splitCoord1 c.cmin.z c.cmax.z⟩

/-- `PatchCoord::get_split`, PatchCoord.hpp:45-113, children in array order. -/
def getSplit (c : PatchCoord) : List PatchCoord :=
  let s := getSplitCoord c
  let mn := c.cmin
  let mx := c.cmax
  [ ⟨⟨mn.x, mn.y, mn.z⟩, ⟨s.x, s.y, s.z⟩⟩,
    ⟨⟨mn.x, mn.y, u64add s.z 1⟩, ⟨s.x, s.y, mx.z⟩⟩,
    ⟨⟨mn.x, u64add s.y 1, mn.z⟩, ⟨s.x, mx.y, s.z⟩⟩,
    ⟨⟨mn.x, u64add s.y 1, u64add s.z 1⟩, ⟨s.x, mx.y, mx.z⟩⟩,
    ⟨⟨u64add s.x 1, mn.y, mn.z⟩, ⟨mx.x, s.y, s.z⟩⟩,
    ⟨⟨u64add s.x 1, mn.y, u64add s.z 1⟩, ⟨mx.x, s.y, mx.z⟩⟩,
    ⟨⟨u64add s.x 1, u64add s.y 1, mn.z⟩, ⟨mx.x, mx.y, s.z⟩⟩,
    ⟨⟨u64add s.x 1, u64add s.y 1, u64add s.z 1⟩, ⟨mx.x, mx.y, mx.z⟩⟩ ]

/-- `PatchCoord::merge(c1, c2)`, PatchCoord.hpp:119-127. -/
def mergeCoord2 (a b : PatchCoord) : PatchCoord :=
  ⟨⟨min a.cmin.x b.cmin.x, min a.cmin.y b.cmin.y, min a.cmin.z b.cmin.z⟩,
   ⟨max a.cmax.x b.cmax.x, max a.cmax.y b.cmax.y, max a.cmax.z b.cmax.z⟩⟩

/-- `PatchCoord::merge(array)`, PatchCoord.hpp:129-133 (`none` if the list does not have eight elements: the C++ type is
`std::array<_, 8>`). -/
def mergeCoord8 : List PatchCoord → Option PatchCoord
  | [c0, c1, c2, c3, c4, c5, c6, c7] =>
    some (mergeCoord2 (mergeCoord2 (mergeCoord2 c0 c1) (mergeCoord2 c2 c3))
      (mergeCoord2 (mergeCoord2 c4 c5) (mergeCoord2 c6 c7)))
  | _ => none

/-- `PatchCoord::get_patch_range`, PatchCoord.hpp:135-139: half open range (lower, upper). -/
def getPatchRange (c : PatchCoord) : V3 Nat × V3 Nat :=
  (c.cmin, ⟨u64add c.cmax.x 1, u64add c.cmax.y 1, u64add c.cmax.z 1⟩)

/-- `Patch`, /repo/src/shamrock/include/shamrock/patch/Patch.hpp:40-75 (the fields the scheduler uses). -/
structure Patch where
  idPatch : Nat
  packNodeIndex : Nat
  loadValue : Nat
  coord : PatchCoord
  nodeOwnerId : Nat
deriving DecidableEq, Repr

/-- `Patch::get_split`, Patch.hpp:225-251. -/
def Patch.getSplit (p : Patch) : List Patch :=
  (Shamrock.getSplit p.coord).map fun c => { p with loadValue := p.loadValue / 8, coord := c }

/-- `Patch::merge_patch`, Patch.hpp:253-286. -/
def mergePatch (ps : List Patch) : Option Patch :=
  match ps with
  | [p0, p1, p2, p3, p4, p5, p6, p7] =>
    (mergeCoord8 [p0.coord, p1.coord, p2.coord, p3.coord, p4.coord, p5.coord, p6.coord, p7.coord]).map fun c =>
      { p0 with coord := c, packNodeIndex := u64max,
                loadValue := u64add (u64add (u64add (u64add (u64add (u64add (u64add p0.loadValue p1.loadValue)
                  p2.loadValue) p3.loadValue) p4.loadValue) p5.loadValue) p6.loadValue) p7.loadValue }
  | _ => none

/-- `PatchScheduler::max_axis_patch_coord_length`, /repo/src/shamrock/include/shamrock/scheduler/PatchScheduler.hpp:92
(`max_box_sz` = 2097152 - 1, /repo/src/shammath/include/shammath/sfc/hilbert.hpp:83). -/
def maxAxisPatchCoordLength : Nat := 2097151 + 1

/-- The per axis part of a base grid cell, /repo/src/shamrock/src/scheduler/PatchScheduler.cpp:74-79 (the product
`x + 1` is a u32 expression, the rest u64). -/
def gridLo (sz i : Nat) : Nat := u64mul sz i
def gridHi (sz i : Nat) : Nat := u64sub (u64mul sz ((i + 1) % 2 ^ 32)) 1

/-- `PatchScheduler::make_patch_base_grid`, PatchScheduler.cpp:55-97: (root coordinates in insertion order, bounding box handed to
the simulation box); `none` = undefined behaviour (shift count in `roundup_pow2_clz`) or division by zero. -/
def makePatchBaseGrid (nx ny nz : Nat) : Option (List PatchCoord × PatchCoord) :=
  let maxLin := max (max (max 0 nx) ny) nz
  match roundupPow2Clz (BitVec.ofNat 32 maxLin) with
  | none => none
  | some d =>
    let coordDivFact := d.toNat
    if coordDivFact = 0 then none else
    let sz := maxAxisPatchCoordLength / coordDivFact
    let coords := (List.range nx).flatMap fun x => (List.range ny).flatMap fun y => (List.range nz).map fun z =>
      PatchCoord.mk ⟨gridLo sz x, gridLo sz y, gridLo sz z⟩ ⟨gridHi sz x, gridHi sz y, gridHi sz z⟩
    let bounds := PatchCoord.mk ⟨0, 0, 0⟩ ⟨u64sub (u64mul sz nx) 1, u64sub (u64mul sz ny) 1, u64sub (u64mul sz nz) 1⟩
    some (coords, bounds)

/-! ### CoordRangeTransform

/repo/src/shammath/include/shammath/CoordRangeTransform.hpp and /repo/src/shammath/src/CoordRangeTransform.cpp. The floating
point destination is abstract: `conv` is the integer → float conversion, `mul`/`add` the rounded float operations. -/

/-- Rounded arithmetic of the destination type: only monotonicity of each operation is assumed, which IEEE round-to-nearest
guarantees (conversion of unsigned integers, multiplication by a non negative constant, addition of a constant). -/
structure MonoArith (F : Type) [LE F] where
  conv : Nat → F
  mul : F → F → F
  add : F → F → F
  /-- the scale factors the constructor may produce (non negative, not NaN) -/
  goodFact : F → Prop
  conv_mono : ∀ a b, a ≤ b → conv a ≤ conv b
  mul_mono : ∀ f a b, goodFact f → a ≤ b → mul a f ≤ mul b f
  add_mono : ∀ c a b, a ≤ b → add a c ≤ add b c

/-- `CoordRangeTransform<u64_3, f64_3>::transform(coord)` in `multiply` mode, one component, CoordRangeTransform.hpp:105-112. -/
def transformMul {F : Type} [LE F] (A : MonoArith F) (fact destMin : F) (srcMin coord : Nat) : F :=
  A.add (A.mul (A.conv (u64sub coord srcMin)) fact) destMin

/-- Modes of the integer transform, CoordRangeTransform.hpp:38. -/
inductive TrMode where
  | multiply
  | divide
deriving DecidableEq, Repr

/-- `CoordRangeTransform<u64_3,u64_3>` data, CoordRangeTransform.hpp:41-46 for integer destinations. -/
structure IntTransform where
  fact : V3 Nat
  destMin : V3 Nat
  srcMin : V3 Nat
  mode : TrMode
deriving DecidableEq, Repr

/-- Constructor `CoordRangeTransform<u64_3,u64_3>`, /repo/src/shammath/src/CoordRangeTransform.cpp:187-219; ranges are given
by their lower/upper corner. `none` is a thrown `invalid_argument` (`check_throw_ranges` rejects empty ranges, lines 191-192). -/
def mkIntTransform (slo shi dlo dhi : V3 Nat) : Option IntTransform :=
  if slo.x < shi.x ∧ slo.y < shi.y ∧ slo.z < shi.z ∧ dlo.x < dhi.x ∧ dlo.y < dhi.y ∧ dlo.z < dhi.z then
    let s : V3 Nat := ⟨shi.x - slo.x, shi.y - slo.y, shi.z - slo.z⟩
    let d : V3 Nat := ⟨dhi.x - dlo.x, dhi.y - dlo.y, dhi.z - dlo.z⟩
    let cx := decide (d.x ≥ s.x)
    let cy := decide (d.y ≥ s.y)
    let cz := decide (d.z ≥ s.z)
    if cx = cy ∧ cz = cy then
      if cx then
        if d.x % s.x = 0 ∧ d.y % s.y = 0 ∧ d.z % s.z = 0 then
          some ⟨⟨d.x / s.x, d.y / s.y, d.z / s.z⟩, dlo, slo, .multiply⟩
        else none
      else
        if s.x % d.x = 0 ∧ s.y % d.y = 0 ∧ s.z % d.z = 0 then
          some ⟨⟨s.x / d.x, s.y / d.y, s.z / d.z⟩, dlo, slo, .divide⟩
        else none
    else none
  else none

/-- One component of the integer `transform`, CoordRangeTransform.hpp:105-112. -/
def intTransform1 (m : TrMode) (fact destMin srcMin c : Nat) : Nat :=
  match m with
  | .multiply => u64add (u64mul (u64sub c srcMin) fact) destMin
  | .divide => u64add (u64sub c srcMin / fact) destMin

/-- One component of the integer `reverse_transform`, CoordRangeTransform.hpp:115-122. -/
def intReverse1 (m : TrMode) (fact destMin srcMin c : Nat) : Nat :=
  match m with
  | .multiply => u64add (u64sub c destMin / fact) srcMin
  | .divide => u64add (u64mul (u64sub c destMin) fact) srcMin

/-- `transform(coord)` on the three components. -/
def IntTransform.apply (t : IntTransform) (c : V3 Nat) : V3 Nat :=
  ⟨intTransform1 t.mode t.fact.x t.destMin.x t.srcMin.x c.x, intTransform1 t.mode t.fact.y t.destMin.y t.srcMin.y c.y,
   intTransform1 t.mode t.fact.z t.destMin.z t.srcMin.z c.z⟩

/-- `reverse_transform(coord)` on the three components. -/
def IntTransform.reverse (t : IntTransform) (c : V3 Nat) : V3 Nat :=
  ⟨intReverse1 t.mode t.fact.x t.destMin.x t.srcMin.x c.x, intReverse1 t.mode t.fact.y t.destMin.y t.srcMin.y c.y,
   intReverse1 t.mode t.fact.z t.destMin.z t.srcMin.z c.z⟩

end Shamrock
