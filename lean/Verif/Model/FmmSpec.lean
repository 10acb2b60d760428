import Mathlib.Algebra.BigOperators.Fin
import Mathlib.Analysis.Calculus.IteratedDeriv.Defs
import Verif.Model.FmmOps

/-!
Reading the stored components of the symmetric tensors by their indices: the vocabulary in which the
properties of the multipole operators are stated.  Independent of the operators.
-/

namespace Shamrock.Fmm

open Shamrock (V3)

noncomputable section

/-- Component of a position or displacement. -/
def ix (v : V3 ℝ) : Fin 3 → ℝ
  | 0 => v.x
  | 1 => v.y
  | 2 => v.z

/-- Component of a vector. -/
def SymT1.at (t : SymT1) : Fin 3 → ℝ
  | 0 => t.v_0
  | 1 => t.v_1
  | 2 => t.v_2

/-- The tensor of order 1 obtained by fixing one index of a symmetric tensor of order 2: the stored
component with that index inserted in its sorted place. -/
def SymT2.slice (t : SymT2) : Fin 3 → SymT1
  | 0 => ⟨t.v_00, t.v_01, t.v_02⟩
  | 1 => ⟨t.v_01, t.v_11, t.v_12⟩
  | 2 => ⟨t.v_02, t.v_12, t.v_22⟩

/-- Component of a symmetric tensor of order 2 at any indices, in any order. -/
def SymT2.at (t : SymT2) (i j : Fin 3) : ℝ := (t.slice i).at j

/-- The tensor of order 2 obtained by fixing one index of a symmetric tensor of order 3: the stored
component with that index inserted in its sorted place. -/
def SymT3.slice (t : SymT3) : Fin 3 → SymT2
  | 0 => ⟨t.v_000, t.v_001, t.v_002, t.v_011, t.v_012, t.v_022⟩
  | 1 => ⟨t.v_001, t.v_011, t.v_012, t.v_111, t.v_112, t.v_122⟩
  | 2 => ⟨t.v_002, t.v_012, t.v_022, t.v_112, t.v_122, t.v_222⟩

/-- Component of a symmetric tensor of order 3 at any indices, in any order. -/
def SymT3.at (t : SymT3) (i j k : Fin 3) : ℝ := (t.slice i).at j k

/-- The tensor of order 3 obtained by fixing one index of a symmetric tensor of order 4: the stored
component with that index inserted in its sorted place. -/
def SymT4.slice (t : SymT4) : Fin 3 → SymT3
  | 0 => ⟨t.v_0000, t.v_0001, t.v_0002, t.v_0011, t.v_0012, t.v_0022, t.v_0111, t.v_0112, t.v_0122, t.v_0222⟩
  | 1 => ⟨t.v_0001, t.v_0011, t.v_0012, t.v_0111, t.v_0112, t.v_0122, t.v_1111, t.v_1112, t.v_1122, t.v_1222⟩
  | 2 => ⟨t.v_0002, t.v_0012, t.v_0022, t.v_0112, t.v_0122, t.v_0222, t.v_1112, t.v_1122, t.v_1222, t.v_2222⟩

/-- Component of a symmetric tensor of order 4 at any indices, in any order. -/
def SymT4.at (t : SymT4) (i j k l : Fin 3) : ℝ := (t.slice i).at j k l

/-- The tensor of order 4 obtained by fixing one index of a symmetric tensor of order 5: the stored
component with that index inserted in its sorted place. -/
def SymT5.slice (t : SymT5) : Fin 3 → SymT4
  | 0 => ⟨t.v_00000, t.v_00001, t.v_00002, t.v_00011, t.v_00012, t.v_00022, t.v_00111, t.v_00112, t.v_00122, t.v_00222, t.v_01111, t.v_01112, t.v_01122, t.v_01222, t.v_02222⟩
  | 1 => ⟨t.v_00001, t.v_00011, t.v_00012, t.v_00111, t.v_00112, t.v_00122, t.v_01111, t.v_01112, t.v_01122, t.v_01222, t.v_11111, t.v_11112, t.v_11122, t.v_11222, t.v_12222⟩
  | 2 => ⟨t.v_00002, t.v_00012, t.v_00022, t.v_00112, t.v_00122, t.v_00222, t.v_01112, t.v_01122, t.v_01222, t.v_02222, t.v_11112, t.v_11122, t.v_11222, t.v_12222, t.v_22222⟩

/-- Component of a symmetric tensor of order 5 at any indices, in any order. -/
def SymT5.at (t : SymT5) (i j k l m : Fin 3) : ℝ := (t.slice i).at j k l m

/-- A list of point masses (mass, position). -/
abbrev Sources := List (ℝ × V3 ℝ)

/-- Mass moment of a list of point masses about `s` for a list of indices:
`Σ m (x - s)_i (x - s)_j ...`. -/
def mom (src : Sources) (s : V3 ℝ) (idx : List (Fin 3)) : ℝ :=
  (src.map fun p => p.1 * (idx.map fun i => ix p.2 i - ix s i).prod).sum

/-- `Q` holds the mass moments of the orders 0..0 of `src` about `s`. -/
def IsMoments0 (Q : Coll00) (src : Sources) (s : V3 ℝ) : Prop :=
  Q.t0 = mom src s []

/-- `Q` holds the mass moments of the orders 0..1 of `src` about `s`. -/
def IsMoments1 (Q : Coll01) (src : Sources) (s : V3 ℝ) : Prop :=
  Q.t0 = mom src s [] ∧
  (∀ i, Q.t1.at i = mom src s [i])

/-- `Q` holds the mass moments of the orders 0..2 of `src` about `s`. -/
def IsMoments2 (Q : Coll02) (src : Sources) (s : V3 ℝ) : Prop :=
  Q.t0 = mom src s [] ∧
  (∀ i, Q.t1.at i = mom src s [i]) ∧
  (∀ i j, Q.t2.at i j = mom src s [i, j])

/-- `Q` holds the mass moments of the orders 0..3 of `src` about `s`. -/
def IsMoments3 (Q : Coll03) (src : Sources) (s : V3 ℝ) : Prop :=
  Q.t0 = mom src s [] ∧
  (∀ i, Q.t1.at i = mom src s [i]) ∧
  (∀ i j, Q.t2.at i j = mom src s [i, j]) ∧
  (∀ i j k, Q.t3.at i j k = mom src s [i, j, k])

/-- `Q` holds the mass moments of the orders 0..4 of `src` about `s`. -/
def IsMoments4 (Q : Coll04) (src : Sources) (s : V3 ℝ) : Prop :=
  Q.t0 = mom src s [] ∧
  (∀ i, Q.t1.at i = mom src s [i]) ∧
  (∀ i j, Q.t2.at i j = mom src s [i, j]) ∧
  (∀ i j k, Q.t3.at i j k = mom src s [i, j, k]) ∧
  (∀ i j k l, Q.t4.at i j k l = mom src s [i, j, k, l])

/-- `Q` holds the mass moments of the orders 0..5 of `src` about `s`. -/
def IsMoments5 (Q : Coll05) (src : Sources) (s : V3 ℝ) : Prop :=
  Q.t0 = mom src s [] ∧
  (∀ i, Q.t1.at i = mom src s [i]) ∧
  (∀ i j, Q.t2.at i j = mom src s [i, j]) ∧
  (∀ i j k, Q.t3.at i j k = mom src s [i, j, k]) ∧
  (∀ i j k l, Q.t4.at i j k l = mom src s [i, j, k, l]) ∧
  (∀ i j k l m, Q.t5.at i j k l m = mom src s [i, j, k, l, m])

/-- Taylor polynomial of degree 0 in `h` of a vector field whose derivatives of the orders 0..0 are
the tensors `D.t1`..`D.t1`: component `i`. -/
def taylorField1 (D : Coll11) (h : V3 ℝ) (i : Fin 3) : ℝ :=
  D.t1.at i

/-- Taylor polynomial of degree 1 in `h` of a vector field whose derivatives of the orders 0..1 are
the tensors `D.t1`..`D.t2`: component `i`. -/
def taylorField2 (D : Coll12) (h : V3 ℝ) (i : Fin 3) : ℝ :=
  D.t1.at i +
  (∑ j, D.t2.at i j * ix h j)

/-- Taylor polynomial of degree 2 in `h` of a vector field whose derivatives of the orders 0..2 are
the tensors `D.t1`..`D.t3`: component `i`. -/
def taylorField3 (D : Coll13) (h : V3 ℝ) (i : Fin 3) : ℝ :=
  D.t1.at i +
  (∑ j, D.t2.at i j * ix h j) +
  1 / 2 * (∑ j, ∑ k, D.t3.at i j k * ix h j * ix h k)

/-- Taylor polynomial of degree 3 in `h` of a vector field whose derivatives of the orders 0..3 are
the tensors `D.t1`..`D.t4`: component `i`. -/
def taylorField4 (D : Coll14) (h : V3 ℝ) (i : Fin 3) : ℝ :=
  D.t1.at i +
  (∑ j, D.t2.at i j * ix h j) +
  1 / 2 * (∑ j, ∑ k, D.t3.at i j k * ix h j * ix h k) +
  1 / 6 * (∑ j, ∑ k, ∑ l, D.t4.at i j k l * ix h j * ix h k * ix h l)

/-- Taylor polynomial of degree 4 in `h` of a vector field whose derivatives of the orders 0..4 are
the tensors `D.t1`..`D.t5`: component `i`. -/
def taylorField5 (D : Coll15) (h : V3 ℝ) (i : Fin 3) : ℝ :=
  D.t1.at i +
  (∑ j, D.t2.at i j * ix h j) +
  1 / 2 * (∑ j, ∑ k, D.t3.at i j k * ix h j * ix h k) +
  1 / 6 * (∑ j, ∑ k, ∑ l, D.t4.at i j k l * ix h j * ix h k * ix h l) +
  1 / 24 * (∑ j, ∑ k, ∑ l, ∑ m, D.t5.at i j k l m * ix h j * ix h k * ix h l * ix h m)

/-- Taylor polynomial of degree 0 in `h` of a function whose derivatives of the orders 0..0 are the
tensors `D.t0`..`D.t0`. -/
def taylorPot0 (D : Coll00) (h : V3 ℝ) : ℝ :=
  D.t0

/-- Taylor polynomial of degree 1 in `h` of a function whose derivatives of the orders 0..1 are the
tensors `D.t0`..`D.t1`. -/
def taylorPot1 (D : Coll01) (h : V3 ℝ) : ℝ :=
  D.t0 +
  (∑ i, D.t1.at i * ix h i)

/-- Taylor polynomial of degree 2 in `h` of a function whose derivatives of the orders 0..2 are the
tensors `D.t0`..`D.t2`. -/
def taylorPot2 (D : Coll02) (h : V3 ℝ) : ℝ :=
  D.t0 +
  (∑ i, D.t1.at i * ix h i) +
  1 / 2 * (∑ i, ∑ j, D.t2.at i j * ix h i * ix h j)

/-- Taylor polynomial of degree 3 in `h` of a function whose derivatives of the orders 0..3 are the
tensors `D.t0`..`D.t3`. -/
def taylorPot3 (D : Coll03) (h : V3 ℝ) : ℝ :=
  D.t0 +
  (∑ i, D.t1.at i * ix h i) +
  1 / 2 * (∑ i, ∑ j, D.t2.at i j * ix h i * ix h j) +
  1 / 6 * (∑ i, ∑ j, ∑ k, D.t3.at i j k * ix h i * ix h j * ix h k)

/-- Taylor polynomial of degree 4 in `h` of a function whose derivatives of the orders 0..4 are the
tensors `D.t0`..`D.t4`. -/
def taylorPot4 (D : Coll04) (h : V3 ℝ) : ℝ :=
  D.t0 +
  (∑ i, D.t1.at i * ix h i) +
  1 / 2 * (∑ i, ∑ j, D.t2.at i j * ix h i * ix h j) +
  1 / 6 * (∑ i, ∑ j, ∑ k, D.t3.at i j k * ix h i * ix h j * ix h k) +
  1 / 24 * (∑ i, ∑ j, ∑ k, ∑ l, D.t4.at i j k l * ix h i * ix h j * ix h k * ix h l)

/-- Taylor polynomial of degree 5 in `h` of a function whose derivatives of the orders 0..5 are the
tensors `D.t0`..`D.t5`. -/
def taylorPot5 (D : Coll05) (h : V3 ℝ) : ℝ :=
  D.t0 +
  (∑ i, D.t1.at i * ix h i) +
  1 / 2 * (∑ i, ∑ j, D.t2.at i j * ix h i * ix h j) +
  1 / 6 * (∑ i, ∑ j, ∑ k, D.t3.at i j k * ix h i * ix h j * ix h k) +
  1 / 24 * (∑ i, ∑ j, ∑ k, ∑ l, D.t4.at i j k l * ix h i * ix h j * ix h k * ix h l) +
  1 / 120 * (∑ i, ∑ j, ∑ k, ∑ l, ∑ m, D.t5.at i j k l m * ix h i * ix h j * ix h k * ix h l * ix h m)

/-- The point `r + t h`. -/
def along (r h : V3 ℝ) (t : ℝ) : V3 ℝ := ⟨r.x + t * h.x, r.y + t * h.y, r.z + t * h.z⟩

/-- Euclidean norm. -/
def vnorm (v : V3 ℝ) : ℝ := Real.sqrt (v.x * v.x + v.y * v.y + v.z * v.z)

/-- The Newtonian potential (without the coupling constant): `1 / |v|`. -/
def gravPot (v : V3 ℝ) : ℝ := 1 / vnorm v

/-- Its gradient: `- v / |v|³`. -/
def gravField (v : V3 ℝ) (i : Fin 3) : ℝ := -ix v i / vnorm v ^ 3

/-- Value at 1 of the Taylor polynomial at 0, with `p` terms, of a function of one variable. -/
def taylorSum (f : ℝ → ℝ) (p : ℕ) : ℝ := ∑ n ∈ Finset.range p, iteratedDeriv n f 0 / (n.factorial : ℝ)

end

end Shamrock.Fmm
