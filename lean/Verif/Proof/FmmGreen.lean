import Mathlib.Analysis.Calculus.Deriv.Add
import Mathlib.Analysis.Calculus.Deriv.Mul
import Mathlib.Analysis.Calculus.Deriv.Inv
import Mathlib.Analysis.SpecialFunctions.Sqrt
import Mathlib.Tactic.Ring
import Mathlib.Tactic.FieldSimp
import Mathlib.Tactic.FinCases
import Mathlib.Tactic.LinearCombination
import Verif.Model.FmmSpec

/-!
The tensors of `GreenFuncGravCartesian` are the successive derivatives of `1 / |r|`.
-/

namespace Shamrock.Fmm

open Shamrock (V3)

noncomputable section

/-- `|r|²`. -/
def rsq (r : V3 ℝ) : ℝ := r.x * r.x + r.y * r.y + r.z * r.z
/-- `1 / |r|`. -/
def g0 (r : V3 ℝ) : ℝ := 1 / Real.sqrt (rsq r)
/-- Next radial factor. -/
def g1 (r : V3 ℝ) : ℝ := -1 * (1 / rsq r) * g0 r
/-- Next radial factor. -/
def g2 (r : V3 ℝ) : ℝ := -3 * (1 / rsq r) * g1 r
/-- Next radial factor. -/
def g3 (r : V3 ℝ) : ℝ := -5 * (1 / rsq r) * g2 r
/-- Next radial factor. -/
def g4 (r : V3 ℝ) : ℝ := -7 * (1 / rsq r) * g3 r
/-- Next radial factor. -/
def g5 (r : V3 ℝ) : ℝ := -9 * (1 / rsq r) * g4 r

/-- `r · h`. -/
def dotv (r h : V3 ℝ) : ℝ := r.x * h.x + r.y * h.y + r.z * h.z

theorem hasDeriv_x (r h : V3 ℝ) (t : ℝ) : HasDerivAt (fun t => (along r h t).x) h.x t := by
  have := ((hasDerivAt_id t).mul_const h.x).const_add r.x
  simpa [along] using this

theorem hasDeriv_y (r h : V3 ℝ) (t : ℝ) : HasDerivAt (fun t => (along r h t).y) h.y t := by
  have := ((hasDerivAt_id t).mul_const h.y).const_add r.y
  simpa [along] using this

theorem hasDeriv_z (r h : V3 ℝ) (t : ℝ) : HasDerivAt (fun t => (along r h t).z) h.z t := by
  have := ((hasDerivAt_id t).mul_const h.z).const_add r.z
  simpa [along] using this

theorem hasDeriv_rsq (r h : V3 ℝ) (t : ℝ) :
    HasDerivAt (fun t => rsq (along r h t)) (2 * dotv (along r h t) h) t := by
  have hx := hasDeriv_x r h t
  have hy := hasDeriv_y r h t
  have hz := hasDeriv_z r h t
  refine (((hx.fun_mul hx).fun_add (hy.fun_mul hy)).fun_add (hz.fun_mul hz)).congr_deriv ?_
  simp only [dotv]
  ring

theorem rsq_nonneg (r : V3 ℝ) : 0 ≤ rsq r :=
  add_nonneg (add_nonneg (mul_self_nonneg _) (mul_self_nonneg _)) (mul_self_nonneg _)

theorem hasDeriv_g0 (r h : V3 ℝ) (t : ℝ) (hr : rsq (along r h t) ≠ 0) :
    HasDerivAt (fun t => g0 (along r h t)) (dotv (along r h t) h * g1 (along r h t)) t := by
  have hs := (hasDeriv_rsq r h t).sqrt hr
  have hne : Real.sqrt (rsq (along r h t)) ≠ 0 := by
    rw [Real.sqrt_ne_zero (rsq_nonneg _)]
    exact hr
  have hi := hs.fun_inv hne
  have e : (fun t => g0 (along r h t)) = fun t => (Real.sqrt (rsq (along r h t)))⁻¹ := by
    funext t
    simp [g0]
  rw [e]
  refine hi.congr_deriv ?_
  have hq := Real.sq_sqrt (rsq_nonneg (along r h t))
  simp only [g1, g0]
  generalize rsq (along r h t) = q at *
  generalize Real.sqrt q = w at *
  subst hq
  field_simp

theorem hasDeriv_next (c : ℝ) (f : V3 ℝ → ℝ) (f' : ℝ) (r h : V3 ℝ) (t : ℝ) (hr : rsq (along r h t) ≠ 0)
    (hf : HasDerivAt (fun t => f (along r h t)) f' t) :
    HasDerivAt (fun t => -c * (1 / rsq (along r h t)) * f (along r h t))
      (-c * (1 / rsq (along r h t)) * f' +
        2 * c * dotv (along r h t) h / (rsq (along r h t)) ^ 2 * f (along r h t)) t := by
  have hi := ((hasDeriv_rsq r h t).fun_inv hr).const_mul (-c)
  have e : (fun t => -c * (1 / rsq (along r h t)) * f (along r h t)) =
      fun t => -c * (rsq (along r h t))⁻¹ * f (along r h t) := by
    funext t
    rw [one_div]
  rw [e]
  refine (hi.fun_mul hf).congr_deriv ?_
  field_simp
  ring

theorem hasDeriv_g1 (r h : V3 ℝ) (t : ℝ) (hr : rsq (along r h t) ≠ 0) :
    HasDerivAt (fun t => g1 (along r h t)) (dotv (along r h t) h * g2 (along r h t)) t := by
  refine (hasDeriv_next 1 g0 _ r h t hr (hasDeriv_g0 r h t hr)).congr_deriv ?_
  simp only [g2, g1]
  field_simp
  ring

theorem hasDeriv_g2 (r h : V3 ℝ) (t : ℝ) (hr : rsq (along r h t) ≠ 0) :
    HasDerivAt (fun t => g2 (along r h t)) (dotv (along r h t) h * g3 (along r h t)) t := by
  refine (hasDeriv_next 3 g1 _ r h t hr (hasDeriv_g1 r h t hr)).congr_deriv ?_
  simp only [g3, g2]
  field_simp
  ring

theorem hasDeriv_g3 (r h : V3 ℝ) (t : ℝ) (hr : rsq (along r h t) ≠ 0) :
    HasDerivAt (fun t => g3 (along r h t)) (dotv (along r h t) h * g4 (along r h t)) t := by
  refine (hasDeriv_next 5 g2 _ r h t hr (hasDeriv_g2 r h t hr)).congr_deriv ?_
  simp only [g4, g3]
  field_simp
  ring

theorem hasDeriv_g4 (r h : V3 ℝ) (t : ℝ) (hr : rsq (along r h t) ≠ 0) :
    HasDerivAt (fun t => g4 (along r h t)) (dotv (along r h t) h * g5 (along r h t)) t := by
  refine (hasDeriv_next 7 g3 _ r h t hr (hasDeriv_g3 r h t hr)).congr_deriv ?_
  simp only [g5, g4]
  field_simp
  ring

theorem rsq_g1 (r : V3 ℝ) (hr : rsq r ≠ 0) : rsq r * g1 r = -1 * g0 r := by
  simp only [g1]
  field_simp

theorem rsq_g2 (r : V3 ℝ) (hr : rsq r ≠ 0) : rsq r * g2 r = -3 * g1 r := by
  simp only [g2]
  field_simp

theorem rsq_g3 (r : V3 ℝ) (hr : rsq r ≠ 0) : rsq r * g3 r = -5 * g2 r := by
  simp only [g3]
  field_simp

theorem rsq_g4 (r : V3 ℝ) (hr : rsq r ≠ 0) : rsq r * g4 r = -7 * g3 r := by
  simp only [g4]
  field_simp

theorem rsq_g5 (r : V3 ℝ) (hr : rsq r ≠ 0) : rsq r * g5 r = -9 * g4 r := by
  simp only [g5]
  field_simp

theorem green05_eq (r : V3 ℝ) : (green05 r).t0 = g0 r := rfl

theorem dgreen_0_s (r h : V3 ℝ) (t : ℝ) (hr : rsq (along r h t) ≠ 0) :
    HasDerivAt (fun t => (green05 (along r h t)).t0) ((green05 (along r h t)).t1.v_0 * h.x + (green05 (along r h t)).t1.v_1 * h.y + (green05 (along r h t)).t1.v_2 * h.z) t := by
  have hg0 := hasDeriv_g0 r h t hr
  have key := hg0
  refine HasDerivAt.congr_deriv (f := fun t => (green05 (along r h t)).t0) key ?_
  show _ = (g1 (along r h t) * (along r h t).x) * h.x + (g1 (along r h t) * (along r h t).y) * h.y + (g1 (along r h t) * (along r h t).z) * h.z
  simp only [dotv]
  ring

theorem dgreen_1_0 (r h : V3 ℝ) (t : ℝ) (hr : rsq (along r h t) ≠ 0) :
    HasDerivAt (fun t => (green05 (along r h t)).t1.v_0) ((green05 (along r h t)).t2.v_00 * h.x + (green05 (along r h t)).t2.v_01 * h.y + (green05 (along r h t)).t2.v_02 * h.z) t := by
  have hr1 := hasDeriv_x r h t
  have hg1 := hasDeriv_g1 r h t hr
  have key := (hg1.fun_mul hr1)
  refine HasDerivAt.congr_deriv (f := fun t => (green05 (along r h t)).t1.v_0) key ?_
  show _ = (g1 (along r h t) + (g2 (along r h t) * ((along r h t).x * (along r h t).x))) * h.x + ((g2 (along r h t) * (along r h t).x) * (along r h t).y) * h.y + ((g2 (along r h t) * (along r h t).x) * (along r h t).z) * h.z
  simp only [dotv]
  ring

theorem dgreen_1_1 (r h : V3 ℝ) (t : ℝ) (hr : rsq (along r h t) ≠ 0) :
    HasDerivAt (fun t => (green05 (along r h t)).t1.v_1) ((green05 (along r h t)).t2.v_01 * h.x + (green05 (along r h t)).t2.v_11 * h.y + (green05 (along r h t)).t2.v_12 * h.z) t := by
  have hr2 := hasDeriv_y r h t
  have hg1 := hasDeriv_g1 r h t hr
  have key := (hg1.fun_mul hr2)
  refine HasDerivAt.congr_deriv (f := fun t => (green05 (along r h t)).t1.v_1) key ?_
  show _ = ((g2 (along r h t) * (along r h t).x) * (along r h t).y) * h.x + (g1 (along r h t) + (g2 (along r h t) * ((along r h t).y * (along r h t).y))) * h.y + ((g2 (along r h t) * (along r h t).y) * (along r h t).z) * h.z
  simp only [dotv]
  ring

theorem dgreen_1_2 (r h : V3 ℝ) (t : ℝ) (hr : rsq (along r h t) ≠ 0) :
    HasDerivAt (fun t => (green05 (along r h t)).t1.v_2) ((green05 (along r h t)).t2.v_02 * h.x + (green05 (along r h t)).t2.v_12 * h.y + (green05 (along r h t)).t2.v_22 * h.z) t := by
  have hr3 := hasDeriv_z r h t
  have hg1 := hasDeriv_g1 r h t hr
  have key := (hg1.fun_mul hr3)
  refine HasDerivAt.congr_deriv (f := fun t => (green05 (along r h t)).t1.v_2) key ?_
  show _ = ((g2 (along r h t) * (along r h t).x) * (along r h t).z) * h.x + ((g2 (along r h t) * (along r h t).y) * (along r h t).z) * h.y + (g1 (along r h t) + (g2 (along r h t) * ((along r h t).z * (along r h t).z))) * h.z
  simp only [dotv]
  ring

theorem dgreen_2_00 (r h : V3 ℝ) (t : ℝ) (hr : rsq (along r h t) ≠ 0) :
    HasDerivAt (fun t => (green05 (along r h t)).t2.v_00) ((green05 (along r h t)).t3.v_000 * h.x + (green05 (along r h t)).t3.v_001 * h.y + (green05 (along r h t)).t3.v_002 * h.z) t := by
  have hr1 := hasDeriv_x r h t
  have hr1pow2 := hr1.fun_mul hr1
  have hg1 := hasDeriv_g1 r h t hr
  have hg2 := hasDeriv_g2 r h t hr
  have key := (hg1.fun_add (hg2.fun_mul hr1pow2))
  refine HasDerivAt.congr_deriv (f := fun t => (green05 (along r h t)).t2.v_00) key ?_
  show _ = (((3 * g2 (along r h t)) * (along r h t).x) + (g3 (along r h t) * ((along r h t).x * ((along r h t).x * (along r h t).x)))) * h.x + ((g2 (along r h t) * (along r h t).y) + ((g3 (along r h t) * ((along r h t).x * (along r h t).x)) * (along r h t).y)) * h.y + ((g2 (along r h t) * (along r h t).z) + ((g3 (along r h t) * ((along r h t).x * (along r h t).x)) * (along r h t).z)) * h.z
  simp only [dotv]
  ring

theorem dgreen_2_01 (r h : V3 ℝ) (t : ℝ) (hr : rsq (along r h t) ≠ 0) :
    HasDerivAt (fun t => (green05 (along r h t)).t2.v_01) ((green05 (along r h t)).t3.v_001 * h.x + (green05 (along r h t)).t3.v_011 * h.y + (green05 (along r h t)).t3.v_012 * h.z) t := by
  have hr1 := hasDeriv_x r h t
  have hr2 := hasDeriv_y r h t
  have hg2 := hasDeriv_g2 r h t hr
  have key := ((hg2.fun_mul hr1).fun_mul hr2)
  refine HasDerivAt.congr_deriv (f := fun t => (green05 (along r h t)).t2.v_01) key ?_
  show _ = ((g2 (along r h t) * (along r h t).y) + ((g3 (along r h t) * ((along r h t).x * (along r h t).x)) * (along r h t).y)) * h.x + ((g2 (along r h t) * (along r h t).x) + ((g3 (along r h t) * (along r h t).x) * ((along r h t).y * (along r h t).y))) * h.y + (((g3 (along r h t) * (along r h t).x) * (along r h t).y) * (along r h t).z) * h.z
  simp only [dotv]
  ring

theorem dgreen_2_02 (r h : V3 ℝ) (t : ℝ) (hr : rsq (along r h t) ≠ 0) :
    HasDerivAt (fun t => (green05 (along r h t)).t2.v_02) ((green05 (along r h t)).t3.v_002 * h.x + (green05 (along r h t)).t3.v_012 * h.y + (green05 (along r h t)).t3.v_022 * h.z) t := by
  have hr1 := hasDeriv_x r h t
  have hr3 := hasDeriv_z r h t
  have hg2 := hasDeriv_g2 r h t hr
  have key := ((hg2.fun_mul hr1).fun_mul hr3)
  refine HasDerivAt.congr_deriv (f := fun t => (green05 (along r h t)).t2.v_02) key ?_
  show _ = ((g2 (along r h t) * (along r h t).z) + ((g3 (along r h t) * ((along r h t).x * (along r h t).x)) * (along r h t).z)) * h.x + (((g3 (along r h t) * (along r h t).x) * (along r h t).y) * (along r h t).z) * h.y + ((g2 (along r h t) * (along r h t).x) + ((g3 (along r h t) * (along r h t).x) * ((along r h t).z * (along r h t).z))) * h.z
  simp only [dotv]
  ring

theorem dgreen_2_11 (r h : V3 ℝ) (t : ℝ) (hr : rsq (along r h t) ≠ 0) :
    HasDerivAt (fun t => (green05 (along r h t)).t2.v_11) ((green05 (along r h t)).t3.v_011 * h.x + (green05 (along r h t)).t3.v_111 * h.y + (green05 (along r h t)).t3.v_112 * h.z) t := by
  have hr2 := hasDeriv_y r h t
  have hr2pow2 := hr2.fun_mul hr2
  have hg1 := hasDeriv_g1 r h t hr
  have hg2 := hasDeriv_g2 r h t hr
  have key := (hg1.fun_add (hg2.fun_mul hr2pow2))
  refine HasDerivAt.congr_deriv (f := fun t => (green05 (along r h t)).t2.v_11) key ?_
  show _ = ((g2 (along r h t) * (along r h t).x) + ((g3 (along r h t) * (along r h t).x) * ((along r h t).y * (along r h t).y))) * h.x + (((3 * g2 (along r h t)) * (along r h t).y) + (g3 (along r h t) * ((along r h t).y * ((along r h t).y * (along r h t).y)))) * h.y + ((g2 (along r h t) * (along r h t).z) + ((g3 (along r h t) * ((along r h t).y * (along r h t).y)) * (along r h t).z)) * h.z
  simp only [dotv]
  ring

theorem dgreen_2_12 (r h : V3 ℝ) (t : ℝ) (hr : rsq (along r h t) ≠ 0) :
    HasDerivAt (fun t => (green05 (along r h t)).t2.v_12) ((green05 (along r h t)).t3.v_012 * h.x + (green05 (along r h t)).t3.v_112 * h.y + (green05 (along r h t)).t3.v_122 * h.z) t := by
  have hr2 := hasDeriv_y r h t
  have hr3 := hasDeriv_z r h t
  have hg2 := hasDeriv_g2 r h t hr
  have key := ((hg2.fun_mul hr2).fun_mul hr3)
  refine HasDerivAt.congr_deriv (f := fun t => (green05 (along r h t)).t2.v_12) key ?_
  show _ = (((g3 (along r h t) * (along r h t).x) * (along r h t).y) * (along r h t).z) * h.x + ((g2 (along r h t) * (along r h t).z) + ((g3 (along r h t) * ((along r h t).y * (along r h t).y)) * (along r h t).z)) * h.y + ((g2 (along r h t) * (along r h t).y) + ((g3 (along r h t) * (along r h t).y) * ((along r h t).z * (along r h t).z))) * h.z
  simp only [dotv]
  ring

theorem dgreen_2_22 (r h : V3 ℝ) (t : ℝ) (hr : rsq (along r h t) ≠ 0) :
    HasDerivAt (fun t => (green05 (along r h t)).t2.v_22) ((green05 (along r h t)).t3.v_022 * h.x + (green05 (along r h t)).t3.v_122 * h.y + (green05 (along r h t)).t3.v_222 * h.z) t := by
  have hr3 := hasDeriv_z r h t
  have hr3pow2 := hr3.fun_mul hr3
  have hg1 := hasDeriv_g1 r h t hr
  have hg2 := hasDeriv_g2 r h t hr
  have key := (hg1.fun_add (hg2.fun_mul hr3pow2))
  refine HasDerivAt.congr_deriv (f := fun t => (green05 (along r h t)).t2.v_22) key ?_
  show _ = ((g2 (along r h t) * (along r h t).x) + ((g3 (along r h t) * (along r h t).x) * ((along r h t).z * (along r h t).z))) * h.x + ((g2 (along r h t) * (along r h t).y) + ((g3 (along r h t) * (along r h t).y) * ((along r h t).z * (along r h t).z))) * h.y + (((3 * g2 (along r h t)) * (along r h t).z) + (g3 (along r h t) * ((along r h t).z * ((along r h t).z * (along r h t).z)))) * h.z
  simp only [dotv]
  ring

theorem dgreen_3_000 (r h : V3 ℝ) (t : ℝ) (hr : rsq (along r h t) ≠ 0) :
    HasDerivAt (fun t => (green05 (along r h t)).t3.v_000) ((green05 (along r h t)).t4.v_0000 * h.x + (green05 (along r h t)).t4.v_0001 * h.y + (green05 (along r h t)).t4.v_0002 * h.z) t := by
  have hr1 := hasDeriv_x r h t
  have hr1pow2 := hr1.fun_mul hr1
  have hr1pow3 := hr1.fun_mul hr1pow2
  have hg2 := hasDeriv_g2 r h t hr
  have hg3 := hasDeriv_g3 r h t hr
  have key := (((hg2.const_mul 3).fun_mul hr1).fun_add (hg3.fun_mul hr1pow3))
  refine HasDerivAt.congr_deriv (f := fun t => (green05 (along r h t)).t3.v_000) key ?_
  show _ = (((3 * g2 (along r h t)) + ((6 * g3 (along r h t)) * ((along r h t).x * (along r h t).x))) + (g4 (along r h t) * ((along r h t).x * ((along r h t).x * ((along r h t).x * (along r h t).x))))) * h.x + ((((3 * g3 (along r h t)) * (along r h t).x) * (along r h t).y) + ((g4 (along r h t) * ((along r h t).x * ((along r h t).x * (along r h t).x))) * (along r h t).y)) * h.y + ((((3 * g3 (along r h t)) * (along r h t).x) * (along r h t).z) + ((g4 (along r h t) * ((along r h t).x * ((along r h t).x * (along r h t).x))) * (along r h t).z)) * h.z
  simp only [dotv]
  ring

theorem dgreen_3_001 (r h : V3 ℝ) (t : ℝ) (hr : rsq (along r h t) ≠ 0) :
    HasDerivAt (fun t => (green05 (along r h t)).t3.v_001) ((green05 (along r h t)).t4.v_0001 * h.x + (green05 (along r h t)).t4.v_0011 * h.y + (green05 (along r h t)).t4.v_0012 * h.z) t := by
  have hr1 := hasDeriv_x r h t
  have hr1pow2 := hr1.fun_mul hr1
  have hr2 := hasDeriv_y r h t
  have hg2 := hasDeriv_g2 r h t hr
  have hg3 := hasDeriv_g3 r h t hr
  have key := ((hg2.fun_mul hr2).fun_add ((hg3.fun_mul hr1pow2).fun_mul hr2))
  refine HasDerivAt.congr_deriv (f := fun t => (green05 (along r h t)).t3.v_001) key ?_
  show _ = ((((3 * g3 (along r h t)) * (along r h t).x) * (along r h t).y) + ((g4 (along r h t) * ((along r h t).x * ((along r h t).x * (along r h t).x))) * (along r h t).y)) * h.x + (((g2 (along r h t) + (g3 (along r h t) * ((along r h t).x * (along r h t).x))) + (g3 (along r h t) * ((along r h t).y * (along r h t).y))) + ((g4 (along r h t) * ((along r h t).x * (along r h t).x)) * ((along r h t).y * (along r h t).y))) * h.y + (((g3 (along r h t) + (g4 (along r h t) * ((along r h t).x * (along r h t).x))) * (along r h t).y) * (along r h t).z) * h.z
  simp only [dotv]
  ring

theorem dgreen_3_002 (r h : V3 ℝ) (t : ℝ) (hr : rsq (along r h t) ≠ 0) :
    HasDerivAt (fun t => (green05 (along r h t)).t3.v_002) ((green05 (along r h t)).t4.v_0002 * h.x + (green05 (along r h t)).t4.v_0012 * h.y + (green05 (along r h t)).t4.v_0022 * h.z) t := by
  have hr1 := hasDeriv_x r h t
  have hr1pow2 := hr1.fun_mul hr1
  have hr3 := hasDeriv_z r h t
  have hg2 := hasDeriv_g2 r h t hr
  have hg3 := hasDeriv_g3 r h t hr
  have key := ((hg2.fun_mul hr3).fun_add ((hg3.fun_mul hr1pow2).fun_mul hr3))
  refine HasDerivAt.congr_deriv (f := fun t => (green05 (along r h t)).t3.v_002) key ?_
  show _ = ((((3 * g3 (along r h t)) * (along r h t).x) * (along r h t).z) + ((g4 (along r h t) * ((along r h t).x * ((along r h t).x * (along r h t).x))) * (along r h t).z)) * h.x + (((g3 (along r h t) + (g4 (along r h t) * ((along r h t).x * (along r h t).x))) * (along r h t).y) * (along r h t).z) * h.y + (((g2 (along r h t) + (g3 (along r h t) * ((along r h t).x * (along r h t).x))) + (g3 (along r h t) * ((along r h t).z * (along r h t).z))) + ((g4 (along r h t) * ((along r h t).x * (along r h t).x)) * ((along r h t).z * (along r h t).z))) * h.z
  simp only [dotv]
  ring

theorem dgreen_3_011 (r h : V3 ℝ) (t : ℝ) (hr : rsq (along r h t) ≠ 0) :
    HasDerivAt (fun t => (green05 (along r h t)).t3.v_011) ((green05 (along r h t)).t4.v_0011 * h.x + (green05 (along r h t)).t4.v_0111 * h.y + (green05 (along r h t)).t4.v_0112 * h.z) t := by
  have hr1 := hasDeriv_x r h t
  have hr2 := hasDeriv_y r h t
  have hr2pow2 := hr2.fun_mul hr2
  have hg2 := hasDeriv_g2 r h t hr
  have hg3 := hasDeriv_g3 r h t hr
  have key := ((hg2.fun_mul hr1).fun_add ((hg3.fun_mul hr1).fun_mul hr2pow2))
  refine HasDerivAt.congr_deriv (f := fun t => (green05 (along r h t)).t3.v_011) key ?_
  show _ = (((g2 (along r h t) + (g3 (along r h t) * ((along r h t).x * (along r h t).x))) + (g3 (along r h t) * ((along r h t).y * (along r h t).y))) + ((g4 (along r h t) * ((along r h t).x * (along r h t).x)) * ((along r h t).y * (along r h t).y))) * h.x + ((((3 * g3 (along r h t)) * (along r h t).x) * (along r h t).y) + ((g4 (along r h t) * (along r h t).x) * ((along r h t).y * ((along r h t).y * (along r h t).y)))) * h.y + (((along r h t).x * (g3 (along r h t) + (g4 (along r h t) * ((along r h t).y * (along r h t).y)))) * (along r h t).z) * h.z
  simp only [dotv]
  ring

theorem dgreen_3_012 (r h : V3 ℝ) (t : ℝ) (hr : rsq (along r h t) ≠ 0) :
    HasDerivAt (fun t => (green05 (along r h t)).t3.v_012) ((green05 (along r h t)).t4.v_0012 * h.x + (green05 (along r h t)).t4.v_0112 * h.y + (green05 (along r h t)).t4.v_0122 * h.z) t := by
  have hr1 := hasDeriv_x r h t
  have hr2 := hasDeriv_y r h t
  have hr3 := hasDeriv_z r h t
  have hg3 := hasDeriv_g3 r h t hr
  have key := (((hg3.fun_mul hr1).fun_mul hr2).fun_mul hr3)
  refine HasDerivAt.congr_deriv (f := fun t => (green05 (along r h t)).t3.v_012) key ?_
  show _ = (((g3 (along r h t) + (g4 (along r h t) * ((along r h t).x * (along r h t).x))) * (along r h t).y) * (along r h t).z) * h.x + (((along r h t).x * (g3 (along r h t) + (g4 (along r h t) * ((along r h t).y * (along r h t).y)))) * (along r h t).z) * h.y + (((along r h t).x * (along r h t).y) * (g3 (along r h t) + (g4 (along r h t) * ((along r h t).z * (along r h t).z)))) * h.z
  simp only [dotv]
  ring

theorem dgreen_3_022 (r h : V3 ℝ) (t : ℝ) (hr : rsq (along r h t) ≠ 0) :
    HasDerivAt (fun t => (green05 (along r h t)).t3.v_022) ((green05 (along r h t)).t4.v_0022 * h.x + (green05 (along r h t)).t4.v_0122 * h.y + (green05 (along r h t)).t4.v_0222 * h.z) t := by
  have hr1 := hasDeriv_x r h t
  have hr3 := hasDeriv_z r h t
  have hr3pow2 := hr3.fun_mul hr3
  have hg2 := hasDeriv_g2 r h t hr
  have hg3 := hasDeriv_g3 r h t hr
  have key := ((hg2.fun_mul hr1).fun_add ((hg3.fun_mul hr1).fun_mul hr3pow2))
  refine HasDerivAt.congr_deriv (f := fun t => (green05 (along r h t)).t3.v_022) key ?_
  show _ = (((g2 (along r h t) + (g3 (along r h t) * ((along r h t).x * (along r h t).x))) + (g3 (along r h t) * ((along r h t).z * (along r h t).z))) + ((g4 (along r h t) * ((along r h t).x * (along r h t).x)) * ((along r h t).z * (along r h t).z))) * h.x + (((along r h t).x * (along r h t).y) * (g3 (along r h t) + (g4 (along r h t) * ((along r h t).z * (along r h t).z)))) * h.y + ((((3 * g3 (along r h t)) * (along r h t).x) * (along r h t).z) + ((g4 (along r h t) * (along r h t).x) * ((along r h t).z * ((along r h t).z * (along r h t).z)))) * h.z
  simp only [dotv]
  ring

theorem dgreen_3_111 (r h : V3 ℝ) (t : ℝ) (hr : rsq (along r h t) ≠ 0) :
    HasDerivAt (fun t => (green05 (along r h t)).t3.v_111) ((green05 (along r h t)).t4.v_0111 * h.x + (green05 (along r h t)).t4.v_1111 * h.y + (green05 (along r h t)).t4.v_1112 * h.z) t := by
  have hr2 := hasDeriv_y r h t
  have hr2pow2 := hr2.fun_mul hr2
  have hr2pow3 := hr2.fun_mul hr2pow2
  have hg2 := hasDeriv_g2 r h t hr
  have hg3 := hasDeriv_g3 r h t hr
  have key := (((hg2.const_mul 3).fun_mul hr2).fun_add (hg3.fun_mul hr2pow3))
  refine HasDerivAt.congr_deriv (f := fun t => (green05 (along r h t)).t3.v_111) key ?_
  show _ = ((((3 * g3 (along r h t)) * (along r h t).x) * (along r h t).y) + ((g4 (along r h t) * (along r h t).x) * ((along r h t).y * ((along r h t).y * (along r h t).y)))) * h.x + (((3 * g2 (along r h t)) + ((6 * g3 (along r h t)) * ((along r h t).y * (along r h t).y))) + (g4 (along r h t) * ((along r h t).y * ((along r h t).y * ((along r h t).y * (along r h t).y))))) * h.y + ((((3 * g3 (along r h t)) * (along r h t).y) * (along r h t).z) + ((g4 (along r h t) * ((along r h t).y * ((along r h t).y * (along r h t).y))) * (along r h t).z)) * h.z
  simp only [dotv]
  ring

theorem dgreen_3_112 (r h : V3 ℝ) (t : ℝ) (hr : rsq (along r h t) ≠ 0) :
    HasDerivAt (fun t => (green05 (along r h t)).t3.v_112) ((green05 (along r h t)).t4.v_0112 * h.x + (green05 (along r h t)).t4.v_1112 * h.y + (green05 (along r h t)).t4.v_1122 * h.z) t := by
  have hr2 := hasDeriv_y r h t
  have hr2pow2 := hr2.fun_mul hr2
  have hr3 := hasDeriv_z r h t
  have hg2 := hasDeriv_g2 r h t hr
  have hg3 := hasDeriv_g3 r h t hr
  have key := ((hg2.fun_mul hr3).fun_add ((hg3.fun_mul hr2pow2).fun_mul hr3))
  refine HasDerivAt.congr_deriv (f := fun t => (green05 (along r h t)).t3.v_112) key ?_
  show _ = (((along r h t).x * (g3 (along r h t) + (g4 (along r h t) * ((along r h t).y * (along r h t).y)))) * (along r h t).z) * h.x + ((((3 * g3 (along r h t)) * (along r h t).y) * (along r h t).z) + ((g4 (along r h t) * ((along r h t).y * ((along r h t).y * (along r h t).y))) * (along r h t).z)) * h.y + (((g2 (along r h t) + (g3 (along r h t) * ((along r h t).y * (along r h t).y))) + (g3 (along r h t) * ((along r h t).z * (along r h t).z))) + ((g4 (along r h t) * ((along r h t).y * (along r h t).y)) * ((along r h t).z * (along r h t).z))) * h.z
  simp only [dotv]
  ring

theorem dgreen_3_122 (r h : V3 ℝ) (t : ℝ) (hr : rsq (along r h t) ≠ 0) :
    HasDerivAt (fun t => (green05 (along r h t)).t3.v_122) ((green05 (along r h t)).t4.v_0122 * h.x + (green05 (along r h t)).t4.v_1122 * h.y + (green05 (along r h t)).t4.v_1222 * h.z) t := by
  have hr2 := hasDeriv_y r h t
  have hr3 := hasDeriv_z r h t
  have hr3pow2 := hr3.fun_mul hr3
  have hg2 := hasDeriv_g2 r h t hr
  have hg3 := hasDeriv_g3 r h t hr
  have key := ((hg2.fun_mul hr2).fun_add ((hg3.fun_mul hr2).fun_mul hr3pow2))
  refine HasDerivAt.congr_deriv (f := fun t => (green05 (along r h t)).t3.v_122) key ?_
  show _ = (((along r h t).x * (along r h t).y) * (g3 (along r h t) + (g4 (along r h t) * ((along r h t).z * (along r h t).z)))) * h.x + (((g2 (along r h t) + (g3 (along r h t) * ((along r h t).y * (along r h t).y))) + (g3 (along r h t) * ((along r h t).z * (along r h t).z))) + ((g4 (along r h t) * ((along r h t).y * (along r h t).y)) * ((along r h t).z * (along r h t).z))) * h.y + ((((3 * g3 (along r h t)) * (along r h t).y) * (along r h t).z) + ((g4 (along r h t) * (along r h t).y) * ((along r h t).z * ((along r h t).z * (along r h t).z)))) * h.z
  simp only [dotv]
  ring

theorem dgreen_3_222 (r h : V3 ℝ) (t : ℝ) (hr : rsq (along r h t) ≠ 0) :
    HasDerivAt (fun t => (green05 (along r h t)).t3.v_222) ((green05 (along r h t)).t4.v_0222 * h.x + (green05 (along r h t)).t4.v_1222 * h.y + (green05 (along r h t)).t4.v_2222 * h.z) t := by
  have hr3 := hasDeriv_z r h t
  have hr3pow2 := hr3.fun_mul hr3
  have hr3pow3 := hr3.fun_mul hr3pow2
  have hg2 := hasDeriv_g2 r h t hr
  have hg3 := hasDeriv_g3 r h t hr
  have key := (((hg2.const_mul 3).fun_mul hr3).fun_add (hg3.fun_mul hr3pow3))
  refine HasDerivAt.congr_deriv (f := fun t => (green05 (along r h t)).t3.v_222) key ?_
  show _ = ((((3 * g3 (along r h t)) * (along r h t).x) * (along r h t).z) + ((g4 (along r h t) * (along r h t).x) * ((along r h t).z * ((along r h t).z * (along r h t).z)))) * h.x + ((((3 * g3 (along r h t)) * (along r h t).y) * (along r h t).z) + ((g4 (along r h t) * (along r h t).y) * ((along r h t).z * ((along r h t).z * (along r h t).z)))) * h.y + (((3 * g2 (along r h t)) + ((6 * g3 (along r h t)) * ((along r h t).z * (along r h t).z))) + (g4 (along r h t) * ((along r h t).z * ((along r h t).z * ((along r h t).z * (along r h t).z))))) * h.z
  simp only [dotv]
  ring

theorem dgreen_4_0000 (r h : V3 ℝ) (t : ℝ) (hr : rsq (along r h t) ≠ 0) :
    HasDerivAt (fun t => (green05 (along r h t)).t4.v_0000) ((green05 (along r h t)).t5.v_00000 * h.x + (green05 (along r h t)).t5.v_00001 * h.y + (green05 (along r h t)).t5.v_00002 * h.z) t := by
  have hr1 := hasDeriv_x r h t
  have hr1pow2 := hr1.fun_mul hr1
  have hr1pow3 := hr1.fun_mul hr1pow2
  have hr1pow4 := hr1.fun_mul hr1pow3
  have hg2 := hasDeriv_g2 r h t hr
  have hg3 := hasDeriv_g3 r h t hr
  have hg4 := hasDeriv_g4 r h t hr
  have key := (((hg2.const_mul 3).fun_add ((hg3.const_mul 6).fun_mul hr1pow2)).fun_add (hg4.fun_mul hr1pow4))
  refine HasDerivAt.congr_deriv (f := fun t => (green05 (along r h t)).t4.v_0000) key ?_
  show _ = ((((15 * g3 (along r h t)) * (along r h t).x) + ((10 * g4 (along r h t)) * ((along r h t).x * ((along r h t).x * (along r h t).x)))) + (g5 (along r h t) * ((along r h t).x * ((along r h t).x * ((along r h t).x * ((along r h t).x * (along r h t).x)))))) * h.x + ((((3 * g3 (along r h t)) + ((6 * g4 (along r h t)) * ((along r h t).x * (along r h t).x))) + (g5 (along r h t) * ((along r h t).x * ((along r h t).x * ((along r h t).x * (along r h t).x))))) * (along r h t).y) * h.y + ((((3 * g3 (along r h t)) + ((6 * g4 (along r h t)) * ((along r h t).x * (along r h t).x))) + (g5 (along r h t) * ((along r h t).x * ((along r h t).x * ((along r h t).x * (along r h t).x))))) * (along r h t).z) * h.z
  simp only [dotv]
  ring

theorem dgreen_4_0001 (r h : V3 ℝ) (t : ℝ) (hr : rsq (along r h t) ≠ 0) :
    HasDerivAt (fun t => (green05 (along r h t)).t4.v_0001) ((green05 (along r h t)).t5.v_00001 * h.x + (green05 (along r h t)).t5.v_00011 * h.y + (green05 (along r h t)).t5.v_00012 * h.z) t := by
  have hr1 := hasDeriv_x r h t
  have hr1pow2 := hr1.fun_mul hr1
  have hr1pow3 := hr1.fun_mul hr1pow2
  have hr2 := hasDeriv_y r h t
  have hg3 := hasDeriv_g3 r h t hr
  have hg4 := hasDeriv_g4 r h t hr
  have key := ((((hg3.const_mul 3).fun_mul hr1).fun_mul hr2).fun_add ((hg4.fun_mul hr1pow3).fun_mul hr2))
  refine HasDerivAt.congr_deriv (f := fun t => (green05 (along r h t)).t4.v_0001) key ?_
  show _ = ((((3 * g3 (along r h t)) + ((6 * g4 (along r h t)) * ((along r h t).x * (along r h t).x))) + (g5 (along r h t) * ((along r h t).x * ((along r h t).x * ((along r h t).x * (along r h t).x))))) * (along r h t).y) * h.x + (((((3 * g3 (along r h t)) * (along r h t).x) + (g4 (along r h t) * ((along r h t).x * ((along r h t).x * (along r h t).x)))) + (((3 * g4 (along r h t)) * (along r h t).x) * ((along r h t).y * (along r h t).y))) + ((g5 (along r h t) * ((along r h t).x * ((along r h t).x * (along r h t).x))) * ((along r h t).y * (along r h t).y))) * h.y + (((((3 * g4 (along r h t)) * (along r h t).x) + (g5 (along r h t) * ((along r h t).x * ((along r h t).x * (along r h t).x)))) * (along r h t).y) * (along r h t).z) * h.z
  simp only [dotv]
  ring

theorem dgreen_4_0002 (r h : V3 ℝ) (t : ℝ) (hr : rsq (along r h t) ≠ 0) :
    HasDerivAt (fun t => (green05 (along r h t)).t4.v_0002) ((green05 (along r h t)).t5.v_00002 * h.x + (green05 (along r h t)).t5.v_00012 * h.y + (green05 (along r h t)).t5.v_00022 * h.z) t := by
  have hr1 := hasDeriv_x r h t
  have hr1pow2 := hr1.fun_mul hr1
  have hr1pow3 := hr1.fun_mul hr1pow2
  have hr3 := hasDeriv_z r h t
  have hg3 := hasDeriv_g3 r h t hr
  have hg4 := hasDeriv_g4 r h t hr
  have key := ((((hg3.const_mul 3).fun_mul hr1).fun_mul hr3).fun_add ((hg4.fun_mul hr1pow3).fun_mul hr3))
  refine HasDerivAt.congr_deriv (f := fun t => (green05 (along r h t)).t4.v_0002) key ?_
  show _ = ((((3 * g3 (along r h t)) + ((6 * g4 (along r h t)) * ((along r h t).x * (along r h t).x))) + (g5 (along r h t) * ((along r h t).x * ((along r h t).x * ((along r h t).x * (along r h t).x))))) * (along r h t).z) * h.x + (((((3 * g4 (along r h t)) * (along r h t).x) + (g5 (along r h t) * ((along r h t).x * ((along r h t).x * (along r h t).x)))) * (along r h t).y) * (along r h t).z) * h.y + (((((3 * g3 (along r h t)) * (along r h t).x) + (g4 (along r h t) * ((along r h t).x * ((along r h t).x * (along r h t).x)))) + (((3 * g4 (along r h t)) * (along r h t).x) * ((along r h t).z * (along r h t).z))) + ((g5 (along r h t) * ((along r h t).x * ((along r h t).x * (along r h t).x))) * ((along r h t).z * (along r h t).z))) * h.z
  simp only [dotv]
  ring

theorem dgreen_4_0011 (r h : V3 ℝ) (t : ℝ) (hr : rsq (along r h t) ≠ 0) :
    HasDerivAt (fun t => (green05 (along r h t)).t4.v_0011) ((green05 (along r h t)).t5.v_00011 * h.x + (green05 (along r h t)).t5.v_00111 * h.y + (green05 (along r h t)).t5.v_00112 * h.z) t := by
  have hr1 := hasDeriv_x r h t
  have hr1pow2 := hr1.fun_mul hr1
  have hr2 := hasDeriv_y r h t
  have hr2pow2 := hr2.fun_mul hr2
  have hg2 := hasDeriv_g2 r h t hr
  have hg3 := hasDeriv_g3 r h t hr
  have hg4 := hasDeriv_g4 r h t hr
  have key := (((hg2.fun_add (hg3.fun_mul hr1pow2)).fun_add (hg3.fun_mul hr2pow2)).fun_add ((hg4.fun_mul hr1pow2).fun_mul hr2pow2))
  refine HasDerivAt.congr_deriv (f := fun t => (green05 (along r h t)).t4.v_0011) key ?_
  show _ = (((((3 * g3 (along r h t)) * (along r h t).x) + (g4 (along r h t) * ((along r h t).x * ((along r h t).x * (along r h t).x)))) + (((3 * g4 (along r h t)) * (along r h t).x) * ((along r h t).y * (along r h t).y))) + ((g5 (along r h t) * ((along r h t).x * ((along r h t).x * (along r h t).x))) * ((along r h t).y * (along r h t).y))) * h.x + (((((3 * g3 (along r h t)) * (along r h t).y) + (((3 * g4 (along r h t)) * ((along r h t).x * (along r h t).x)) * (along r h t).y)) + (g4 (along r h t) * ((along r h t).y * ((along r h t).y * (along r h t).y)))) + ((g5 (along r h t) * ((along r h t).x * (along r h t).x)) * ((along r h t).y * ((along r h t).y * (along r h t).y)))) * h.y + ((((g3 (along r h t) + (g4 (along r h t) * ((along r h t).x * (along r h t).x))) + (g4 (along r h t) * ((along r h t).y * (along r h t).y))) + ((g5 (along r h t) * ((along r h t).x * (along r h t).x)) * ((along r h t).y * (along r h t).y))) * (along r h t).z) * h.z
  simp only [dotv]
  ring

theorem dgreen_4_0012 (r h : V3 ℝ) (t : ℝ) (hr : rsq (along r h t) ≠ 0) :
    HasDerivAt (fun t => (green05 (along r h t)).t4.v_0012) ((green05 (along r h t)).t5.v_00012 * h.x + (green05 (along r h t)).t5.v_00112 * h.y + (green05 (along r h t)).t5.v_00122 * h.z) t := by
  have hr1 := hasDeriv_x r h t
  have hr1pow2 := hr1.fun_mul hr1
  have hr2 := hasDeriv_y r h t
  have hr3 := hasDeriv_z r h t
  have hg3 := hasDeriv_g3 r h t hr
  have hg4 := hasDeriv_g4 r h t hr
  have key := (((hg3.fun_add (hg4.fun_mul hr1pow2)).fun_mul hr2).fun_mul hr3)
  refine HasDerivAt.congr_deriv (f := fun t => (green05 (along r h t)).t4.v_0012) key ?_
  show _ = (((((3 * g4 (along r h t)) * (along r h t).x) + (g5 (along r h t) * ((along r h t).x * ((along r h t).x * (along r h t).x)))) * (along r h t).y) * (along r h t).z) * h.x + ((((g3 (along r h t) + (g4 (along r h t) * ((along r h t).x * (along r h t).x))) + (g4 (along r h t) * ((along r h t).y * (along r h t).y))) + ((g5 (along r h t) * ((along r h t).x * (along r h t).x)) * ((along r h t).y * (along r h t).y))) * (along r h t).z) * h.y + ((along r h t).y * (((g3 (along r h t) + (g4 (along r h t) * ((along r h t).x * (along r h t).x))) + (g4 (along r h t) * ((along r h t).z * (along r h t).z))) + ((g5 (along r h t) * ((along r h t).x * (along r h t).x)) * ((along r h t).z * (along r h t).z)))) * h.z
  simp only [dotv]
  ring

theorem dgreen_4_0022 (r h : V3 ℝ) (t : ℝ) (hr : rsq (along r h t) ≠ 0) :
    HasDerivAt (fun t => (green05 (along r h t)).t4.v_0022) ((green05 (along r h t)).t5.v_00022 * h.x + (green05 (along r h t)).t5.v_00122 * h.y + (green05 (along r h t)).t5.v_00222 * h.z) t := by
  have hr1 := hasDeriv_x r h t
  have hr1pow2 := hr1.fun_mul hr1
  have hr3 := hasDeriv_z r h t
  have hr3pow2 := hr3.fun_mul hr3
  have hg2 := hasDeriv_g2 r h t hr
  have hg3 := hasDeriv_g3 r h t hr
  have hg4 := hasDeriv_g4 r h t hr
  have key := (((hg2.fun_add (hg3.fun_mul hr1pow2)).fun_add (hg3.fun_mul hr3pow2)).fun_add ((hg4.fun_mul hr1pow2).fun_mul hr3pow2))
  refine HasDerivAt.congr_deriv (f := fun t => (green05 (along r h t)).t4.v_0022) key ?_
  show _ = (((((3 * g3 (along r h t)) * (along r h t).x) + (g4 (along r h t) * ((along r h t).x * ((along r h t).x * (along r h t).x)))) + (((3 * g4 (along r h t)) * (along r h t).x) * ((along r h t).z * (along r h t).z))) + ((g5 (along r h t) * ((along r h t).x * ((along r h t).x * (along r h t).x))) * ((along r h t).z * (along r h t).z))) * h.x + ((along r h t).y * (((g3 (along r h t) + (g4 (along r h t) * ((along r h t).x * (along r h t).x))) + (g4 (along r h t) * ((along r h t).z * (along r h t).z))) + ((g5 (along r h t) * ((along r h t).x * (along r h t).x)) * ((along r h t).z * (along r h t).z)))) * h.y + (((((3 * g3 (along r h t)) * (along r h t).z) + (((3 * g4 (along r h t)) * ((along r h t).x * (along r h t).x)) * (along r h t).z)) + (g4 (along r h t) * ((along r h t).z * ((along r h t).z * (along r h t).z)))) + ((g5 (along r h t) * ((along r h t).x * (along r h t).x)) * ((along r h t).z * ((along r h t).z * (along r h t).z)))) * h.z
  simp only [dotv]
  ring

theorem dgreen_4_0111 (r h : V3 ℝ) (t : ℝ) (hr : rsq (along r h t) ≠ 0) :
    HasDerivAt (fun t => (green05 (along r h t)).t4.v_0111) ((green05 (along r h t)).t5.v_00111 * h.x + (green05 (along r h t)).t5.v_01111 * h.y + (green05 (along r h t)).t5.v_01112 * h.z) t := by
  have hr1 := hasDeriv_x r h t
  have hr2 := hasDeriv_y r h t
  have hr2pow2 := hr2.fun_mul hr2
  have hr2pow3 := hr2.fun_mul hr2pow2
  have hg3 := hasDeriv_g3 r h t hr
  have hg4 := hasDeriv_g4 r h t hr
  have key := ((((hg3.const_mul 3).fun_mul hr1).fun_mul hr2).fun_add ((hg4.fun_mul hr1).fun_mul hr2pow3))
  refine HasDerivAt.congr_deriv (f := fun t => (green05 (along r h t)).t4.v_0111) key ?_
  show _ = (((((3 * g3 (along r h t)) * (along r h t).y) + (((3 * g4 (along r h t)) * ((along r h t).x * (along r h t).x)) * (along r h t).y)) + (g4 (along r h t) * ((along r h t).y * ((along r h t).y * (along r h t).y)))) + ((g5 (along r h t) * ((along r h t).x * (along r h t).x)) * ((along r h t).y * ((along r h t).y * (along r h t).y)))) * h.x + ((along r h t).x * (((3 * g3 (along r h t)) + ((6 * g4 (along r h t)) * ((along r h t).y * (along r h t).y))) + (g5 (along r h t) * ((along r h t).y * ((along r h t).y * ((along r h t).y * (along r h t).y)))))) * h.y + (((along r h t).x * (((3 * g4 (along r h t)) * (along r h t).y) + (g5 (along r h t) * ((along r h t).y * ((along r h t).y * (along r h t).y))))) * (along r h t).z) * h.z
  simp only [dotv]
  ring

theorem dgreen_4_0112 (r h : V3 ℝ) (t : ℝ) (hr : rsq (along r h t) ≠ 0) :
    HasDerivAt (fun t => (green05 (along r h t)).t4.v_0112) ((green05 (along r h t)).t5.v_00112 * h.x + (green05 (along r h t)).t5.v_01112 * h.y + (green05 (along r h t)).t5.v_01122 * h.z) t := by
  have hr1 := hasDeriv_x r h t
  have hr2 := hasDeriv_y r h t
  have hr2pow2 := hr2.fun_mul hr2
  have hr3 := hasDeriv_z r h t
  have hg3 := hasDeriv_g3 r h t hr
  have hg4 := hasDeriv_g4 r h t hr
  have key := ((hr1.fun_mul (hg3.fun_add (hg4.fun_mul hr2pow2))).fun_mul hr3)
  refine HasDerivAt.congr_deriv (f := fun t => (green05 (along r h t)).t4.v_0112) key ?_
  show _ = ((((g3 (along r h t) + (g4 (along r h t) * ((along r h t).x * (along r h t).x))) + (g4 (along r h t) * ((along r h t).y * (along r h t).y))) + ((g5 (along r h t) * ((along r h t).x * (along r h t).x)) * ((along r h t).y * (along r h t).y))) * (along r h t).z) * h.x + (((along r h t).x * (((3 * g4 (along r h t)) * (along r h t).y) + (g5 (along r h t) * ((along r h t).y * ((along r h t).y * (along r h t).y))))) * (along r h t).z) * h.y + ((along r h t).x * (((g3 (along r h t) + (g4 (along r h t) * ((along r h t).y * (along r h t).y))) + (g4 (along r h t) * ((along r h t).z * (along r h t).z))) + ((g5 (along r h t) * ((along r h t).y * (along r h t).y)) * ((along r h t).z * (along r h t).z)))) * h.z
  simp only [dotv]
  ring

theorem dgreen_4_0122 (r h : V3 ℝ) (t : ℝ) (hr : rsq (along r h t) ≠ 0) :
    HasDerivAt (fun t => (green05 (along r h t)).t4.v_0122) ((green05 (along r h t)).t5.v_00122 * h.x + (green05 (along r h t)).t5.v_01122 * h.y + (green05 (along r h t)).t5.v_01222 * h.z) t := by
  have hr1 := hasDeriv_x r h t
  have hr2 := hasDeriv_y r h t
  have hr3 := hasDeriv_z r h t
  have hr3pow2 := hr3.fun_mul hr3
  have hg3 := hasDeriv_g3 r h t hr
  have hg4 := hasDeriv_g4 r h t hr
  have key := ((hr1.fun_mul hr2).fun_mul (hg3.fun_add (hg4.fun_mul hr3pow2)))
  refine HasDerivAt.congr_deriv (f := fun t => (green05 (along r h t)).t4.v_0122) key ?_
  show _ = ((along r h t).y * (((g3 (along r h t) + (g4 (along r h t) * ((along r h t).x * (along r h t).x))) + (g4 (along r h t) * ((along r h t).z * (along r h t).z))) + ((g5 (along r h t) * ((along r h t).x * (along r h t).x)) * ((along r h t).z * (along r h t).z)))) * h.x + ((along r h t).x * (((g3 (along r h t) + (g4 (along r h t) * ((along r h t).y * (along r h t).y))) + (g4 (along r h t) * ((along r h t).z * (along r h t).z))) + ((g5 (along r h t) * ((along r h t).y * (along r h t).y)) * ((along r h t).z * (along r h t).z)))) * h.y + (((along r h t).x * (along r h t).y) * (((3 * g4 (along r h t)) * (along r h t).z) + (g5 (along r h t) * ((along r h t).z * ((along r h t).z * (along r h t).z))))) * h.z
  simp only [dotv]
  ring

theorem dgreen_4_0222 (r h : V3 ℝ) (t : ℝ) (hr : rsq (along r h t) ≠ 0) :
    HasDerivAt (fun t => (green05 (along r h t)).t4.v_0222) ((green05 (along r h t)).t5.v_00222 * h.x + (green05 (along r h t)).t5.v_01222 * h.y + (green05 (along r h t)).t5.v_02222 * h.z) t := by
  have hr1 := hasDeriv_x r h t
  have hr3 := hasDeriv_z r h t
  have hr3pow2 := hr3.fun_mul hr3
  have hr3pow3 := hr3.fun_mul hr3pow2
  have hg3 := hasDeriv_g3 r h t hr
  have hg4 := hasDeriv_g4 r h t hr
  have key := ((((hg3.const_mul 3).fun_mul hr1).fun_mul hr3).fun_add ((hg4.fun_mul hr1).fun_mul hr3pow3))
  refine HasDerivAt.congr_deriv (f := fun t => (green05 (along r h t)).t4.v_0222) key ?_
  show _ = (((((3 * g3 (along r h t)) * (along r h t).z) + (((3 * g4 (along r h t)) * ((along r h t).x * (along r h t).x)) * (along r h t).z)) + (g4 (along r h t) * ((along r h t).z * ((along r h t).z * (along r h t).z)))) + ((g5 (along r h t) * ((along r h t).x * (along r h t).x)) * ((along r h t).z * ((along r h t).z * (along r h t).z)))) * h.x + (((along r h t).x * (along r h t).y) * (((3 * g4 (along r h t)) * (along r h t).z) + (g5 (along r h t) * ((along r h t).z * ((along r h t).z * (along r h t).z))))) * h.y + ((along r h t).x * (((3 * g3 (along r h t)) + ((6 * g4 (along r h t)) * ((along r h t).z * (along r h t).z))) + (g5 (along r h t) * ((along r h t).z * ((along r h t).z * ((along r h t).z * (along r h t).z)))))) * h.z
  simp only [dotv]
  ring

theorem dgreen_4_1111 (r h : V3 ℝ) (t : ℝ) (hr : rsq (along r h t) ≠ 0) :
    HasDerivAt (fun t => (green05 (along r h t)).t4.v_1111) ((green05 (along r h t)).t5.v_01111 * h.x + (green05 (along r h t)).t5.v_11111 * h.y + (green05 (along r h t)).t5.v_11112 * h.z) t := by
  have hr2 := hasDeriv_y r h t
  have hr2pow2 := hr2.fun_mul hr2
  have hr2pow3 := hr2.fun_mul hr2pow2
  have hr2pow4 := hr2.fun_mul hr2pow3
  have hg2 := hasDeriv_g2 r h t hr
  have hg3 := hasDeriv_g3 r h t hr
  have hg4 := hasDeriv_g4 r h t hr
  have key := (((hg2.const_mul 3).fun_add ((hg3.const_mul 6).fun_mul hr2pow2)).fun_add (hg4.fun_mul hr2pow4))
  refine HasDerivAt.congr_deriv (f := fun t => (green05 (along r h t)).t4.v_1111) key ?_
  show _ = ((along r h t).x * (((3 * g3 (along r h t)) + ((6 * g4 (along r h t)) * ((along r h t).y * (along r h t).y))) + (g5 (along r h t) * ((along r h t).y * ((along r h t).y * ((along r h t).y * (along r h t).y)))))) * h.x + ((((15 * g3 (along r h t)) * (along r h t).y) + ((10 * g4 (along r h t)) * ((along r h t).y * ((along r h t).y * (along r h t).y)))) + (g5 (along r h t) * ((along r h t).y * ((along r h t).y * ((along r h t).y * ((along r h t).y * (along r h t).y)))))) * h.y + ((((3 * g3 (along r h t)) + ((6 * g4 (along r h t)) * ((along r h t).y * (along r h t).y))) + (g5 (along r h t) * ((along r h t).y * ((along r h t).y * ((along r h t).y * (along r h t).y))))) * (along r h t).z) * h.z
  simp only [dotv]
  ring

theorem dgreen_4_1112 (r h : V3 ℝ) (t : ℝ) (hr : rsq (along r h t) ≠ 0) :
    HasDerivAt (fun t => (green05 (along r h t)).t4.v_1112) ((green05 (along r h t)).t5.v_01112 * h.x + (green05 (along r h t)).t5.v_11112 * h.y + (green05 (along r h t)).t5.v_11122 * h.z) t := by
  have hr2 := hasDeriv_y r h t
  have hr2pow2 := hr2.fun_mul hr2
  have hr2pow3 := hr2.fun_mul hr2pow2
  have hr3 := hasDeriv_z r h t
  have hg3 := hasDeriv_g3 r h t hr
  have hg4 := hasDeriv_g4 r h t hr
  have key := ((((hg3.const_mul 3).fun_mul hr2).fun_mul hr3).fun_add ((hg4.fun_mul hr2pow3).fun_mul hr3))
  refine HasDerivAt.congr_deriv (f := fun t => (green05 (along r h t)).t4.v_1112) key ?_
  show _ = (((along r h t).x * (((3 * g4 (along r h t)) * (along r h t).y) + (g5 (along r h t) * ((along r h t).y * ((along r h t).y * (along r h t).y))))) * (along r h t).z) * h.x + ((((3 * g3 (along r h t)) + ((6 * g4 (along r h t)) * ((along r h t).y * (along r h t).y))) + (g5 (along r h t) * ((along r h t).y * ((along r h t).y * ((along r h t).y * (along r h t).y))))) * (along r h t).z) * h.y + (((((3 * g3 (along r h t)) * (along r h t).y) + (g4 (along r h t) * ((along r h t).y * ((along r h t).y * (along r h t).y)))) + (((3 * g4 (along r h t)) * (along r h t).y) * ((along r h t).z * (along r h t).z))) + ((g5 (along r h t) * ((along r h t).y * ((along r h t).y * (along r h t).y))) * ((along r h t).z * (along r h t).z))) * h.z
  simp only [dotv]
  ring

theorem dgreen_4_1122 (r h : V3 ℝ) (t : ℝ) (hr : rsq (along r h t) ≠ 0) :
    HasDerivAt (fun t => (green05 (along r h t)).t4.v_1122) ((green05 (along r h t)).t5.v_01122 * h.x + (green05 (along r h t)).t5.v_11122 * h.y + (green05 (along r h t)).t5.v_11222 * h.z) t := by
  have hr2 := hasDeriv_y r h t
  have hr2pow2 := hr2.fun_mul hr2
  have hr3 := hasDeriv_z r h t
  have hr3pow2 := hr3.fun_mul hr3
  have hg2 := hasDeriv_g2 r h t hr
  have hg3 := hasDeriv_g3 r h t hr
  have hg4 := hasDeriv_g4 r h t hr
  have key := (((hg2.fun_add (hg3.fun_mul hr2pow2)).fun_add (hg3.fun_mul hr3pow2)).fun_add ((hg4.fun_mul hr2pow2).fun_mul hr3pow2))
  refine HasDerivAt.congr_deriv (f := fun t => (green05 (along r h t)).t4.v_1122) key ?_
  show _ = ((along r h t).x * (((g3 (along r h t) + (g4 (along r h t) * ((along r h t).y * (along r h t).y))) + (g4 (along r h t) * ((along r h t).z * (along r h t).z))) + ((g5 (along r h t) * ((along r h t).y * (along r h t).y)) * ((along r h t).z * (along r h t).z)))) * h.x + (((((3 * g3 (along r h t)) * (along r h t).y) + (g4 (along r h t) * ((along r h t).y * ((along r h t).y * (along r h t).y)))) + (((3 * g4 (along r h t)) * (along r h t).y) * ((along r h t).z * (along r h t).z))) + ((g5 (along r h t) * ((along r h t).y * ((along r h t).y * (along r h t).y))) * ((along r h t).z * (along r h t).z))) * h.y + (((((3 * g3 (along r h t)) * (along r h t).z) + (((3 * g4 (along r h t)) * ((along r h t).y * (along r h t).y)) * (along r h t).z)) + (g4 (along r h t) * ((along r h t).z * ((along r h t).z * (along r h t).z)))) + ((g5 (along r h t) * ((along r h t).y * (along r h t).y)) * ((along r h t).z * ((along r h t).z * (along r h t).z)))) * h.z
  simp only [dotv]
  ring

theorem dgreen_4_1222 (r h : V3 ℝ) (t : ℝ) (hr : rsq (along r h t) ≠ 0) :
    HasDerivAt (fun t => (green05 (along r h t)).t4.v_1222) ((green05 (along r h t)).t5.v_01222 * h.x + (green05 (along r h t)).t5.v_11222 * h.y + (green05 (along r h t)).t5.v_12222 * h.z) t := by
  have hr2 := hasDeriv_y r h t
  have hr3 := hasDeriv_z r h t
  have hr3pow2 := hr3.fun_mul hr3
  have hr3pow3 := hr3.fun_mul hr3pow2
  have hg3 := hasDeriv_g3 r h t hr
  have hg4 := hasDeriv_g4 r h t hr
  have key := ((((hg3.const_mul 3).fun_mul hr2).fun_mul hr3).fun_add ((hg4.fun_mul hr2).fun_mul hr3pow3))
  refine HasDerivAt.congr_deriv (f := fun t => (green05 (along r h t)).t4.v_1222) key ?_
  show _ = (((along r h t).x * (along r h t).y) * (((3 * g4 (along r h t)) * (along r h t).z) + (g5 (along r h t) * ((along r h t).z * ((along r h t).z * (along r h t).z))))) * h.x + (((((3 * g3 (along r h t)) * (along r h t).z) + (((3 * g4 (along r h t)) * ((along r h t).y * (along r h t).y)) * (along r h t).z)) + (g4 (along r h t) * ((along r h t).z * ((along r h t).z * (along r h t).z)))) + ((g5 (along r h t) * ((along r h t).y * (along r h t).y)) * ((along r h t).z * ((along r h t).z * (along r h t).z)))) * h.y + ((along r h t).y * (((3 * g3 (along r h t)) + ((6 * g4 (along r h t)) * ((along r h t).z * (along r h t).z))) + (g5 (along r h t) * ((along r h t).z * ((along r h t).z * ((along r h t).z * (along r h t).z)))))) * h.z
  simp only [dotv]
  ring

theorem dgreen_4_2222 (r h : V3 ℝ) (t : ℝ) (hr : rsq (along r h t) ≠ 0) :
    HasDerivAt (fun t => (green05 (along r h t)).t4.v_2222) ((green05 (along r h t)).t5.v_02222 * h.x + (green05 (along r h t)).t5.v_12222 * h.y + (green05 (along r h t)).t5.v_22222 * h.z) t := by
  have hr3 := hasDeriv_z r h t
  have hr3pow2 := hr3.fun_mul hr3
  have hr3pow3 := hr3.fun_mul hr3pow2
  have hr3pow4 := hr3.fun_mul hr3pow3
  have hg2 := hasDeriv_g2 r h t hr
  have hg3 := hasDeriv_g3 r h t hr
  have hg4 := hasDeriv_g4 r h t hr
  have key := (((hg2.const_mul 3).fun_add ((hg3.const_mul 6).fun_mul hr3pow2)).fun_add (hg4.fun_mul hr3pow4))
  refine HasDerivAt.congr_deriv (f := fun t => (green05 (along r h t)).t4.v_2222) key ?_
  show _ = ((along r h t).x * (((3 * g3 (along r h t)) + ((6 * g4 (along r h t)) * ((along r h t).z * (along r h t).z))) + (g5 (along r h t) * ((along r h t).z * ((along r h t).z * ((along r h t).z * (along r h t).z)))))) * h.x + ((along r h t).y * (((3 * g3 (along r h t)) + ((6 * g4 (along r h t)) * ((along r h t).z * (along r h t).z))) + (g5 (along r h t) * ((along r h t).z * ((along r h t).z * ((along r h t).z * (along r h t).z)))))) * h.y + ((((15 * g3 (along r h t)) * (along r h t).z) + ((10 * g4 (along r h t)) * ((along r h t).z * ((along r h t).z * (along r h t).z)))) + (g5 (along r h t) * ((along r h t).z * ((along r h t).z * ((along r h t).z * ((along r h t).z * (along r h t).z)))))) * h.z
  simp only [dotv]
  ring

end

end Shamrock.Fmm
