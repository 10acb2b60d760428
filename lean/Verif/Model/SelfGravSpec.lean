import Verif.Model.SelfGrav
import Verif.Model.FmmSpec
import Verif.Props.DTT
/-! What the self gravity of a patch is supposed to be. -/
namespace Shamrock.SelfGrav

open Shamrock Shamrock.Fmm

noncomputable section

/-- The middle of two opposite corners. -/
def center (b : V3 ℝ × V3 ℝ) : V3 ℝ := ⟨(b.1.x + b.2.x) / 2, (b.1.y + b.2.y) / 2, (b.1.z + b.2.z) / 2⟩

/-- The Plummer softened field at `xi` of a unit mass at `xj`, for a gravitational constant of 1. -/
def plummer (eps : ℝ) (xi xj : V3 ℝ) (c : Fin 3) : ℝ :=
  (Fmm.ix xj c - Fmm.ix xi c) / Real.sqrt ((xj.x - xi.x) ^ 2 + (xj.y - xi.y) ^ 2 + (xj.z - xi.z) ^ 2 + eps ^ 2) ^ 3

/-- The field at `xi` of a unit mass at `xj`, expanded to `p` terms around the centers `sA`, `sB` of the cells of `xi` and `xj`: Taylor
polynomial at 1 of the (attractive) field of a mass at the displacement `(sB - sA) + s ((xj - sB) - (xi - sA))`, which is `xj - xi` for
`s = 1`. -/
def farForce (p : Nat) (sA sB xi xj : V3 ℝ) (c : Fin 3) : ℝ :=
  -taylorSum (fun s => gravField (along (sB - sA) ((xj - sB) - (xi - sA)) s) c) p

/-- The force of `j` on `i` is the expanded one, of a pair of cells of the list. -/
def FarPair (t : BVH ℝ) (theta : ℝ) (p : Nat) (P : Nat → V3 ℝ) (m2l : List (Nat × Nat)) (i j : Nat) (F : Fin 3 → ℝ) : Prop :=
  ∃ ab ∈ m2l, i ∈ objsIn t ab.1 ∧ j ∈ objsIn t ab.2 ∧ ∃ ba bb, cellBox t ab.1 = some ba ∧ cellBox t ab.2 = some bb ∧
    macStd theta ba bb = true ∧ ∀ c, F c = farForce p (center ba) (center bb) (P i) (P j) c

/-- The force of `j` on `i` is the softened one, and their cells are a pair of the list. -/
def NearPair (t : BVH ℝ) (eps : ℝ) (P : Nat → V3 ℝ) (p2p : List (Nat × Nat)) (i j : Nat) (F : Fin 3 → ℝ) : Prop :=
  ∃ ab ∈ p2p, i ∈ objsIn t ab.1 ∧ j ∈ objsIn t ab.2 ∧ ∀ c, F c = plummer eps (P i) (P j) c

/-- Half of the largest side. -/
def halfSide (b : V3 ℝ × V3 ℝ) : ℝ := max (max (b.2.x - b.1.x) (b.2.y - b.1.y)) (b.2.z - b.1.z) / 2

/-- The receiver of half size `size` around `s` is far enough of the box: the centers differ, and the half sizes are at most `theta`
times the distance. -/
def WellSeparated (theta size : ℝ) (s : V3 ℝ) (b : V3 ℝ × V3 ℝ) : Prop :=
  s ≠ center b ∧ halfSide b + size ≤
    theta * Real.sqrt (((center b).x - s.x) ^ 2 + ((center b).y - s.y) ^ 2 + ((center b).z - s.z) ^ 2)

/-- `j` is reported once to the receiver of half size `size` around `s`, which contains `i`: in a leaf that is not well separated from it,
and then the force on `i` is the softened one; or in a cell that is well separated, and then it is the one expanded around `s` and the
center of this cell. -/
def MMPair (t : BVH ℝ) (theta : ℝ) (p : Nat) (eps : ℝ) (P : Nat → V3 ℝ) (s : V3 ℝ) (size : ℝ) (i j : Nat) (F : Fin 3 → ℝ) : Prop :=
  ∃ cell b, cellBox t cell = some b ∧ j ∈ objsIn t cell ∧
    ((WellSeparated theta size s b ∧ ∀ c, F c = farForce p s (center b) (P i) (P j) c) ∨
      (t.nodes.length ≤ cell ∧ ¬ WellSeparated theta size s b ∧ ∀ c, F c = plummer eps (P i) (P j) c))

end

end Shamrock.SelfGrav
