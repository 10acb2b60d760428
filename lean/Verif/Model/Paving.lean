import Mathlib.Data.Real.Basic
import Mathlib.Algebra.Order.Floor.Ring
import Mathlib.Data.Real.Archimedean
import Mathlib.Algebra.Ring.Int.Parity
/-!
The paving functions: images of a box that fill the space. Over the reals; indices are unbounded integers (`int` in the code).
-/
namespace Shamrock.Paving

noncomputable section

/-- Points, with the axes 0, 1, 2. -/
abbrev Pt := Fin 3 → ℝ

/-- Indices of an image. -/
abbrev Idx := Fin 3 → Int

/-- `paving_function_general_3d_shear_x`, /repo/src/shammath/include/shammath/paving_function.hpp:246-265; without `shear`, also
`paving_function_general_3d`, 133-161. -/
structure Pav where
  size : Pt
  center : Pt
  per : Fin 3 → Bool
  shear : ℝ

/-- `sham::m1pown`, used in paving_function.hpp:174-176. -/
def m1pown (n : Int) : ℝ := if n % 2 = 0 then 1 else -1

/-- A component of `off`, paving_function.hpp:173-176, 190-195, 278-281, 296-299. -/
def off (P : Pav) (x : Pt) (i : Idx) (a : Fin 3) : ℝ := if P.per a then 0 else (x a - P.center a) * (m1pown (i a) - 1)

/-- `paving_function_general_3d::f`, paving_function.hpp:172-178. -/
def fGen (P : Pav) (x : Pt) (i : Idx) : Pt := fun a => x a + P.size a * i a + off P x i a

/-- `paving_function_general_3d::f_inv`, paving_function.hpp:189-196. -/
def fGenInv (P : Pav) (x : Pt) (i : Idx) : Pt :=
  let tmp : Pt := fun a => x a - P.size a * i a
  fun a => tmp a + off P tmp i a

/-- `shear_x * Tvec{j, 0, 0}`, paving_function.hpp:282, 295. -/
def shearOff (P : Pav) (i : Idx) (a : Fin 3) : ℝ := P.shear * (if a = 0 then (i 1 : ℝ) else 0)

/-- `paving_function_general_3d_shear_x::f`, paving_function.hpp:277-283. -/
def fShear (P : Pav) (x : Pt) (i : Idx) : Pt := fun a => x a + P.size a * i a + off P x i a + shearOff P i a

/-- `paving_function_general_3d_shear_x::f_inv`, paving_function.hpp:294-301. -/
def fShearInv (P : Pav) (x : Pt) (i : Idx) : Pt :=
  let tmp : Pt := fun a => x a - P.size a * i a - shearOff P i a
  fun a => tmp a + off P tmp i a

/-- The values of `for (int i = low; i <= upper; ++i)`, paving_function.hpp:117-119. -/
def intsTo (low : Int) (upper : ℝ) : List Int := (List.range (⌊upper⌋ + 1 - low).toNat).map fun (n : Nat) => low + (n : Int)

/-- `get_paving_index_intersecting`, paving_function.hpp:102-126, 208-232. -/
def indexGen (P : Pav) (lo hi : Pt) : List (Int × Int × Int) :=
  (intsTo ⌊lo 0 / P.size 0⌋ (hi 0 / P.size 0)).flatMap fun (i : Int) =>
    (intsTo ⌊lo 1 / P.size 1⌋ (hi 1 / P.size 1)).flatMap fun (j : Int) =>
      (intsTo ⌊lo 2 / P.size 2⌋ (hi 2 / P.size 2)).map fun k => (i, j, k)

/-- The indices as a function of the axis. -/
def mk (i j k : Int) : Idx := fun a => if a = 0 then i else if a = 1 then j else k

/-- The corners of `f_aabb` of the box of the paving, paving_function.hpp:27-44, 333-338. -/
def mapped (P : Pav) (i : Idx) : Pt × Pt :=
  let l := fShear P (fun a => P.center a - P.size a / 2) i
  let u := fShear P (fun a => P.center a + P.size a / 2) i
  (fun a => if l a > u a then u a else l a, fun a => if l a > u a then l a else u a)

open Classical in
/-- `get_paving_index_intersecting` with shear, paving_function.hpp:311-349. -/
def indexShear (P : Pav) (lo hi : Pt) : List (Int × Int × Int) :=
  (intsTo (⌊lo 0 / P.size 0⌋ - 1) (hi 0 / P.size 0 + 1)).flatMap fun (i : Int) =>
    (intsTo ⌊lo 1 / P.size 1⌋ (hi 1 / P.size 1)).flatMap fun (j : Int) =>
      (intsTo ⌊lo 2 / P.size 2⌋ (hi 2 / P.size 2)).flatMap fun (k : Int) =>
        let is := i - ⌊(j : ℝ) * P.shear / P.size 0⌋
        let m := mapped P (mk is j k)
        if ∀ a, max (m.1 a) (lo a) < min (m.2 a) (hi a) then [(is, j, k)] else []

end

end Shamrock.Paving
