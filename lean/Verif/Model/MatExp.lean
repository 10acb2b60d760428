import Verif.Model.DustDrag
import Mathlib.Data.Matrix.Mul
import Mathlib.Analysis.SpecialFunctions.Log.Base
/-!
The matrix exponential (scaling, squaring, Taylor polynomial) and the exponential dust drag. Arithmetic is over the reals; a matrix is a
function of two indices below its size, so that only the accesses to the arrays of constants can be out of bounds (`none`).
-/
namespace Shamrock.Dust

noncomputable section

variable {n : Nat}

/-- Square matrices. -/
abbrev Mat (n : Nat) := Matrix (Fin n) (Fin n) ℝ

/-- `mat_set_identity`, /repo/src/shammath/include/shammath/matrix_op.hpp:115-122. -/
def setIdentity : Mat n := fun i j => if i = j then 1 else 0

/-- `mat_set_nul`, matrix_op.hpp:433-437. -/
def setNul : Mat n := fun _ _ => 0

/-- `mat_mul_scalar`, matrix_op.hpp:134-139. -/
def mulScalar (x : ℝ) (A : Mat n) : Mat n := fun i j => A i j * x

/-- `mat_axpy_beta`, matrix_op.hpp:539-554: the new content of `output`. -/
def axpyBeta (alpha : ℝ) (input : Mat n) (beta : ℝ) (output : Mat n) : Mat n := fun i j => alpha * input i j + beta * output i j

/-- `mat_gemm`, matrix_op.hpp:600-620: the new content of `output`. -/
def gemm (alpha : ℝ) (in1 in2 : Mat n) (beta : ℝ) (output : Mat n) : Mat n := fun i j => alpha * (∑ k, in1 i k * in2 k j) + beta * output i j

/-- `mat_plus_equal_scalar_id`, matrix_op.hpp:632-637. -/
def plusScalarId (A : Mat n) (beta : ℝ) : Mat n := fun i j => if i = j then A i i + beta else A i j

/-- `mat_L1_norm`, matrix_op.hpp:416-425. -/
def l1Norm (A : Mat n) : ℝ := (List.finRange n).foldl (fun res i => max res (∑ j, |A i j|)) 0

/-- `sequence_qk`, /repo/src/shammath/include/shammath/matrix_exponential.hpp:60-72. -/
def seqQk : List Nat := [1, 2, 2, 3, 3, 4, 4, 5, 5]

/-- `sequence_rk`, matrix_exponential.hpp:77-89. -/
def seqRk : List Nat := [2, 2, 3, 3, 4, 4, 5, 5, 6]

/-- `sequence_nheta_mk`, matrix_exponential.hpp:111-123. -/
def seqNtheta : List ℝ := [8.7334e-6, 1.6778e-3, 1.7720e-3, 1.1354e-1, 3.2690e-1, 7.8738e-1, 1.4383, 2.42860, 3.5397]

/-- `define_bexp_coef`, matrix_exponential.hpp:128-163: the literals, as real numbers (the compiler rounds them to `f64`). -/
def bexpCoef : List ℝ :=
  [1.0, 1.0, 0.5, 0.16666666666666666, 0.041666666666666664, 0.008333333333333333, 0.001388888888888889, 0.0001984126984126984,
    2.48015873015873e-05, 2.7557319223985893e-06, 2.755731922398589e-07, 2.505210838544172e-08, 2.08767569878681e-09,
    1.6059043836821613e-10, 1.1470745597729725e-11, 7.647163731819816e-13, 4.779477332387385e-14, 2.8114572543455206e-15,
    1.5619206968586225e-16, 8.22063524662433e-18, 4.110317623312165e-19, 1.9572941063391263e-20, 8.896791392450574e-22,
    3.868170170630684e-23, 1.6117375710961184e-24, 6.446950284384474e-26, 2.4795962632247976e-27, 9.183689863795546e-29,
    3.279889237069838e-30, 1.1309962886447716e-31]

/-- `seq_theta_mk[k - 1]` for a `k` from 1 to 9 (the `K` of the callers is 9, so the index is always in bounds). -/
def theta (k : Nat) : ℝ := seqNtheta.getD (k - 1) 0

/-- `s_tilde`, matrix_exponential.hpp:194-197. For the norm 0 `log2` is -∞ in the code, and 0 here: `s_tilde` is 0 for both. -/
def sTilde (K : Nat) (normA : ℝ) : Nat := ⌈max 0 (Real.logb 2 (normA / theta K))⌉₊

/-- The loop over `k`, matrix_exponential.hpp:199-206, from `k` on, for at most `fuel` steps: the last `k` and `k_star`. -/
def orderLoop (K : Nat) (normA : ℝ) : (fuel k : Nat) → Nat × Nat
  | 0, k => (k, K)
  | fuel + 1, k => if normA ≤ theta k ∧ normA ≤ theta K then (k + 1, k) else orderLoop K normA fuel (k + 1)

/-- `order_scale`, matrix_exponential.hpp:178-244: `k_star` and `s_star` (`m_star` is not used by the caller). -/
def orderScale (K : Nat) (normA : ℝ) : Nat × Nat :=
  let s := sTilde K normA
  let lp := orderLoop K normA (K - 1) 2
  let kc := min K lp.1
  let cmp := normA / 2 ^ s
  if 9 ≤ kc ∧ cmp ≤ 4 * theta (kc - 3) then (kc - 3, max 2 (s + 2))
  else if 8 ≤ kc ∧ cmp ≤ 2 * theta (kc - 2) then (kc - 2, max 1 (s + 1))
  else if 7 ≤ kc ∧ cmp ≤ theta (kc - 1) then (kc - 1, max 0 s)
  else (lp.2, s)

/-- One turn of the loop over `j`, matrix_exponential.hpp:293-297, with `cc = q * k + j`: the new `I` and `B`. -/
def tayInner (A : Mat n) (st : Mat n × Mat n) (cc : Nat) : Option (Mat n × Mat n) :=
  bexpCoef[cc]?.map fun b => (gemm 1 A st.1 0 st.1, axpyBeta b (gemm 1 A st.1 0 st.1) 1 st.2)

/-- One turn of the loop over `k`, matrix_exponential.hpp:287-305: the new `F`. -/
def tayOuter (A : Mat n) (q : Nat) (F : Mat n) (k : Nat) : Option (Mat n) :=
  (((List.range q).map fun j => q * k + (j + 1)).foldlM (tayInner A) (setIdentity, setNul)).map fun st =>
    gemm 1 (axpyBeta 1 st.2 1 F) (axpyBeta (1 - if 1 ≤ k then 1 else 0) setIdentity (if 1 ≤ k then 1 else 0) st.1) 0 st.2

/-- `taylor_eval`, matrix_exponential.hpp:274-308. -/
def taylorEval (r q : Nat) (A : Mat n) : Option (Mat n) :=
  ((List.range r).reverse.foldlM (tayOuter A q) setNul).map fun F => plusScalarId F 1

/-- `mat_exp`, matrix_exponential.hpp:336-372: the new content of `A`; `1 << s_star` does not fit in an `i32` for 31 and more. -/
def matExp (K : Nat) (A : Mat n) : Option (Mat n) :=
  let o := orderScale K (l1Norm A)
  if 31 ≤ o.2 then none
  else (taylorEval (seqRk.getD (o.1 - 1) 0) (seqQk.getD (o.1 - 1) 0) (mulScalar (1 / 2 ^ o.2) A)).map fun F =>
    (List.range (2 ^ o.2)).foldl (fun I _ => gemm 1 F I 0 I) setIdentity

variable {nd : Nat}

/-- `get_jacobian`, /repo/src/shammodels/ramses/src/modules/DragIntegrator.cpp:417-438. -/
def jacobian (al : Fin nd → ℝ) (new : Cell nd) : Mat (nd + 1) := fun i j =>
  Fin.cases (motive := fun _ => ℝ) (Fin.cases (motive := fun _ => ℝ) (-∑ k, al k * (new.rhoD k / new.rho)) (fun l => al l) j)
    (fun k => Fin.cases (motive := fun _ => ℝ) (al k * (new.rhoD k / new.rho)) (fun l => if k = l then -al k else 0) j) i

/-- `mu`, DragIntegrator.cpp:439-446. -/
def expoMu (al : Fin nd → ℝ) (dt : ℝ) (new : Cell nd) : ℝ :=
  (∑ i, (1 + new.rhoD i / new.rho) * al i) * (-dt / (nd + 1))

/-- The matrix given to `mat_exp`, DragIntegrator.cpp:480-484. -/
def expoArg (al : Fin nd → ℝ) (dt : ℝ) (new : Cell nd) : Mat (nd + 1) :=
  axpyBeta (-expoMu al dt new) setIdentity dt (jacobian al new)

/-- The momenta of gas (index 0) and dust. -/
def Cell.momAll (u : Cell nd) (c : Fin 3) (i : Fin (nd + 1)) : ℝ := Fin.cases (motive := fun _ => ℝ) (u.mom c) (fun k => u.momD k c) i

/-- `r` for the row `i`, DragIntegrator.cpp:495-500, 521-527. -/
def expoRow (M : Mat (nd + 1)) (new : Cell nd) (i : Fin (nd + 1)) (c : Fin 3) : ℝ :=
  M i 0 * new.mom c + ∑ j : Fin nd, M i j.succ * new.momD j c

/-- `drag_work`, DragIntegrator.cpp:502-514. -/
def expoWork (M : Mat (nd + 1)) (new : Cell nd) : ℝ :=
  0.5 * ∑ c, (expoRow M new 0 c - new.mom c) * (1 / new.rho * new.mom c + 1 / new.rho * expoRow M new 0 c)

/-- `dissipation`, DragIntegrator.cpp:520-541. -/
def expoDissipation (M : Mat (nd + 1)) (new : Cell nd) : ℝ :=
  ∑ k : Fin nd, 0.5 * ∑ c, (expoRow M new k.succ c - new.momD k c) *
    (1 / new.rhoD k * new.momD k c + 1 / new.rhoD k * expoRow M new k.succ c)

/-- The part of the kernel that follows `mat_exp`, DragIntegrator.cpp:492-555: `E` is the result of `mat_exp`. -/
def expoApply (heating : Bool) (mu : ℝ) (E : Mat (nd + 1)) (new : Cell nd) : Cell nd where
  rho := new.rho
  mom c := expoRow (mulScalar (Real.exp mu) E) new 0 c
  en := new.en + (1 - frictionControl heating) * expoWork (mulScalar (Real.exp mu) E) new -
    frictionControl heating * expoDissipation (mulScalar (Real.exp mu) E) new
  rhoD := new.rhoD
  momD k c := expoRow (mulScalar (Real.exp mu) E) new k.succ c

/-- The kernel `add_drag [expo-global-mem]`, DragIntegrator.cpp:414-555 (the one with local memory, 608-735, has the same arithmetic). -/
def expoDrag (heating : Bool) (al : Fin nd → ℝ) (dt : ℝ) (new : Cell nd) : Option (Cell nd) :=
  (matExp 9 (expoArg al dt new)).map fun E => expoApply heating (expoMu al dt new) E new

end

end Shamrock.Dust
