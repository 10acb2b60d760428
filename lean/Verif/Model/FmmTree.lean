import Verif.Model.FmmOps

/-!
Moments of the tree cells (`compute_tree_mass_moments`).
-/

namespace Shamrock.Fmm

open Shamrock (V3)

noncomputable section

/-- The moments of a leaf with the particles at `xs`, center `s`, particle mass `m`, moments up to the order
0.  Models `src/shammodels/sph/include/shammodels/sph/modules/self_gravity/compute_tree_mass_moments.hpp:60-77` (`fill_leafs`). -/
def leafMoments0 (xs : List (V3 ℝ)) (s : V3 ℝ) (m : ℝ) : Coll00 :=
  (xs.foldl (fun Q x => Q.addAssign (Coll00.from_vec (x - s))) Coll00.zeros).mulAssign m

/-- The moments of a leaf with the particles at `xs`, center `s`, particle mass `m`, moments up to the order
1.  Models `src/shammodels/sph/include/shammodels/sph/modules/self_gravity/compute_tree_mass_moments.hpp:60-77` (`fill_leafs`). -/
def leafMoments1 (xs : List (V3 ℝ)) (s : V3 ℝ) (m : ℝ) : Coll01 :=
  (xs.foldl (fun Q x => Q.addAssign (Coll01.from_vec (x - s))) Coll01.zeros).mulAssign m

/-- The moments of a leaf with the particles at `xs`, center `s`, particle mass `m`, moments up to the order
2.  Models `src/shammodels/sph/include/shammodels/sph/modules/self_gravity/compute_tree_mass_moments.hpp:60-77` (`fill_leafs`). -/
def leafMoments2 (xs : List (V3 ℝ)) (s : V3 ℝ) (m : ℝ) : Coll02 :=
  (xs.foldl (fun Q x => Q.addAssign (Coll02.from_vec (x - s))) Coll02.zeros).mulAssign m

/-- The moments of a leaf with the particles at `xs`, center `s`, particle mass `m`, moments up to the order
3.  Models `src/shammodels/sph/include/shammodels/sph/modules/self_gravity/compute_tree_mass_moments.hpp:60-77` (`fill_leafs`). -/
def leafMoments3 (xs : List (V3 ℝ)) (s : V3 ℝ) (m : ℝ) : Coll03 :=
  (xs.foldl (fun Q x => Q.addAssign (Coll03.from_vec (x - s))) Coll03.zeros).mulAssign m

/-- The moments of a leaf with the particles at `xs`, center `s`, particle mass `m`, moments up to the order
4.  Models `src/shammodels/sph/include/shammodels/sph/modules/self_gravity/compute_tree_mass_moments.hpp:60-77` (`fill_leafs`). -/
def leafMoments4 (xs : List (V3 ℝ)) (s : V3 ℝ) (m : ℝ) : Coll04 :=
  (xs.foldl (fun Q x => Q.addAssign (Coll04.from_vec (x - s))) Coll04.zeros).mulAssign m

/-- The moments of a leaf with the particles at `xs`, center `s`, particle mass `m`, moments up to the order
5.  Models `src/shammodels/sph/include/shammodels/sph/modules/self_gravity/compute_tree_mass_moments.hpp:60-77` (`fill_leafs`). -/
def leafMoments5 (xs : List (V3 ℝ)) (s : V3 ℝ) (m : ℝ) : Coll05 :=
  (xs.foldl (fun Q x => Q.addAssign (Coll05.from_vec (x - s))) Coll05.zeros).mulAssign m

end

end Shamrock.Fmm
