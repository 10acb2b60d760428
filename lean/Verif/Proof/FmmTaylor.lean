import Mathlib.Analysis.Calculus.IteratedDeriv.Lemmas
import Mathlib.Tactic.IntervalCases
import Verif.Proof.FmmGreen

/-!
Directional derivatives of the Green function tensors in terms of their indices, and the Taylor
polynomials they define.
-/

namespace Shamrock.Fmm

open Shamrock (V3)

noncomputable section

attribute [local irreducible] green05

theorem green_at0 (r h : V3 ℝ) (t : ℝ) (hr : rsq (along r h t) ≠ 0) :
    HasDerivAt (fun t => (green05 (along r h t)).t0)
      (∑ i, (green05 (along r h t)).t1.at i * ix h i) t := by
  simp only [Fin.sum_univ_three]
  exact dgreen_0_s r h t hr

theorem green_at1 (r h : V3 ℝ) (t : ℝ) (hr : rsq (along r h t) ≠ 0) (i : Fin 3) :
    HasDerivAt (fun t => (green05 (along r h t)).t1.at i)
      (∑ j, (green05 (along r h t)).t2.at i j * ix h j) t := by
  simp only [Fin.sum_univ_three]
  fin_cases i
  · exact dgreen_1_0 r h t hr
  · exact dgreen_1_1 r h t hr
  · exact dgreen_1_2 r h t hr

theorem green_at2 (r h : V3 ℝ) (t : ℝ) (hr : rsq (along r h t) ≠ 0) (i j : Fin 3) :
    HasDerivAt (fun t => (green05 (along r h t)).t2.at i j)
      (∑ k, (green05 (along r h t)).t3.at i j k * ix h k) t := by
  simp only [Fin.sum_univ_three]
  fin_cases i
  all_goals fin_cases j
  · exact dgreen_2_00 r h t hr
  · exact dgreen_2_01 r h t hr
  · exact dgreen_2_02 r h t hr
  · exact dgreen_2_01 r h t hr
  · exact dgreen_2_11 r h t hr
  · exact dgreen_2_12 r h t hr
  · exact dgreen_2_02 r h t hr
  · exact dgreen_2_12 r h t hr
  · exact dgreen_2_22 r h t hr

theorem green_at3 (r h : V3 ℝ) (t : ℝ) (hr : rsq (along r h t) ≠ 0) (i j k : Fin 3) :
    HasDerivAt (fun t => (green05 (along r h t)).t3.at i j k)
      (∑ l, (green05 (along r h t)).t4.at i j k l * ix h l) t := by
  simp only [Fin.sum_univ_three]
  fin_cases i
  all_goals fin_cases j
  all_goals fin_cases k
  · exact dgreen_3_000 r h t hr
  · exact dgreen_3_001 r h t hr
  · exact dgreen_3_002 r h t hr
  · exact dgreen_3_001 r h t hr
  · exact dgreen_3_011 r h t hr
  · exact dgreen_3_012 r h t hr
  · exact dgreen_3_002 r h t hr
  · exact dgreen_3_012 r h t hr
  · exact dgreen_3_022 r h t hr
  · exact dgreen_3_001 r h t hr
  · exact dgreen_3_011 r h t hr
  · exact dgreen_3_012 r h t hr
  · exact dgreen_3_011 r h t hr
  · exact dgreen_3_111 r h t hr
  · exact dgreen_3_112 r h t hr
  · exact dgreen_3_012 r h t hr
  · exact dgreen_3_112 r h t hr
  · exact dgreen_3_122 r h t hr
  · exact dgreen_3_002 r h t hr
  · exact dgreen_3_012 r h t hr
  · exact dgreen_3_022 r h t hr
  · exact dgreen_3_012 r h t hr
  · exact dgreen_3_112 r h t hr
  · exact dgreen_3_122 r h t hr
  · exact dgreen_3_022 r h t hr
  · exact dgreen_3_122 r h t hr
  · exact dgreen_3_222 r h t hr

theorem green_at4 (r h : V3 ℝ) (t : ℝ) (hr : rsq (along r h t) ≠ 0) (i j k l : Fin 3) :
    HasDerivAt (fun t => (green05 (along r h t)).t4.at i j k l)
      (∑ m, (green05 (along r h t)).t5.at i j k l m * ix h m) t := by
  simp only [Fin.sum_univ_three]
  fin_cases i
  all_goals fin_cases j
  all_goals fin_cases k
  all_goals fin_cases l
  · exact dgreen_4_0000 r h t hr
  · exact dgreen_4_0001 r h t hr
  · exact dgreen_4_0002 r h t hr
  · exact dgreen_4_0001 r h t hr
  · exact dgreen_4_0011 r h t hr
  · exact dgreen_4_0012 r h t hr
  · exact dgreen_4_0002 r h t hr
  · exact dgreen_4_0012 r h t hr
  · exact dgreen_4_0022 r h t hr
  · exact dgreen_4_0001 r h t hr
  · exact dgreen_4_0011 r h t hr
  · exact dgreen_4_0012 r h t hr
  · exact dgreen_4_0011 r h t hr
  · exact dgreen_4_0111 r h t hr
  · exact dgreen_4_0112 r h t hr
  · exact dgreen_4_0012 r h t hr
  · exact dgreen_4_0112 r h t hr
  · exact dgreen_4_0122 r h t hr
  · exact dgreen_4_0002 r h t hr
  · exact dgreen_4_0012 r h t hr
  · exact dgreen_4_0022 r h t hr
  · exact dgreen_4_0012 r h t hr
  · exact dgreen_4_0112 r h t hr
  · exact dgreen_4_0122 r h t hr
  · exact dgreen_4_0022 r h t hr
  · exact dgreen_4_0122 r h t hr
  · exact dgreen_4_0222 r h t hr
  · exact dgreen_4_0001 r h t hr
  · exact dgreen_4_0011 r h t hr
  · exact dgreen_4_0012 r h t hr
  · exact dgreen_4_0011 r h t hr
  · exact dgreen_4_0111 r h t hr
  · exact dgreen_4_0112 r h t hr
  · exact dgreen_4_0012 r h t hr
  · exact dgreen_4_0112 r h t hr
  · exact dgreen_4_0122 r h t hr
  · exact dgreen_4_0011 r h t hr
  · exact dgreen_4_0111 r h t hr
  · exact dgreen_4_0112 r h t hr
  · exact dgreen_4_0111 r h t hr
  · exact dgreen_4_1111 r h t hr
  · exact dgreen_4_1112 r h t hr
  · exact dgreen_4_0112 r h t hr
  · exact dgreen_4_1112 r h t hr
  · exact dgreen_4_1122 r h t hr
  · exact dgreen_4_0012 r h t hr
  · exact dgreen_4_0112 r h t hr
  · exact dgreen_4_0122 r h t hr
  · exact dgreen_4_0112 r h t hr
  · exact dgreen_4_1112 r h t hr
  · exact dgreen_4_1122 r h t hr
  · exact dgreen_4_0122 r h t hr
  · exact dgreen_4_1122 r h t hr
  · exact dgreen_4_1222 r h t hr
  · exact dgreen_4_0002 r h t hr
  · exact dgreen_4_0012 r h t hr
  · exact dgreen_4_0022 r h t hr
  · exact dgreen_4_0012 r h t hr
  · exact dgreen_4_0112 r h t hr
  · exact dgreen_4_0122 r h t hr
  · exact dgreen_4_0022 r h t hr
  · exact dgreen_4_0122 r h t hr
  · exact dgreen_4_0222 r h t hr
  · exact dgreen_4_0012 r h t hr
  · exact dgreen_4_0112 r h t hr
  · exact dgreen_4_0122 r h t hr
  · exact dgreen_4_0112 r h t hr
  · exact dgreen_4_1112 r h t hr
  · exact dgreen_4_1122 r h t hr
  · exact dgreen_4_0122 r h t hr
  · exact dgreen_4_1122 r h t hr
  · exact dgreen_4_1222 r h t hr
  · exact dgreen_4_0022 r h t hr
  · exact dgreen_4_0122 r h t hr
  · exact dgreen_4_0222 r h t hr
  · exact dgreen_4_0122 r h t hr
  · exact dgreen_4_1122 r h t hr
  · exact dgreen_4_1222 r h t hr
  · exact dgreen_4_0222 r h t hr
  · exact dgreen_4_1222 r h t hr
  · exact dgreen_4_2222 r h t hr

/-- The derivatives along `h` as contractions. -/
def fieldAlong (r h : V3 ℝ) (i : Fin 3) : ℕ → ℝ → ℝ
  | 0 => fun t => (green05 (along r h t)).t1.at i
  | 1 => fun t => ∑ j, (green05 (along r h t)).t2.at i j * ix h j
  | 2 => fun t => ∑ j, ∑ k, (green05 (along r h t)).t3.at i j k * ix h j * ix h k
  | 3 => fun t => ∑ j, ∑ k, ∑ l, (green05 (along r h t)).t4.at i j k l * ix h j * ix h k * ix h l
  | 4 => fun t => ∑ j, ∑ k, ∑ l, ∑ m, (green05 (along r h t)).t5.at i j k l m * ix h j * ix h k * ix h l * ix h m
  | _ => fun _ => 0

theorem fieldAlong_0 (r h : V3 ℝ) (i : Fin 3) (t : ℝ) (hr : rsq (along r h t) ≠ 0) :
    HasDerivAt (fieldAlong r h i 0) (fieldAlong r h i 1 t) t := by
  have key := (green_at1 r h t hr i)
  refine HasDerivAt.congr_deriv (f := fieldAlong r h i 0) key ?_
  simp only [fieldAlong, Finset.sum_mul]

theorem fieldAlong_1 (r h : V3 ℝ) (i : Fin 3) (t : ℝ) (hr : rsq (along r h t) ≠ 0) :
    HasDerivAt (fieldAlong r h i 1) (fieldAlong r h i 2 t) t := by
  have key := HasDerivAt.fun_sum (u := Finset.univ) fun j _ => ((green_at2 r h t hr i j).mul_const (ix h j))
  refine HasDerivAt.congr_deriv (f := fieldAlong r h i 1) key ?_
  simp only [fieldAlong, Finset.sum_mul]
  refine Finset.sum_congr rfl fun j _ => Finset.sum_congr rfl fun k _ => ?_
  ring

theorem fieldAlong_2 (r h : V3 ℝ) (i : Fin 3) (t : ℝ) (hr : rsq (along r h t) ≠ 0) :
    HasDerivAt (fieldAlong r h i 2) (fieldAlong r h i 3 t) t := by
  have key := HasDerivAt.fun_sum (u := Finset.univ) fun j _ => HasDerivAt.fun_sum (u := Finset.univ) fun k _ => (((green_at3 r h t hr i j k).mul_const (ix h j)).mul_const (ix h k))
  refine HasDerivAt.congr_deriv (f := fieldAlong r h i 2) key ?_
  simp only [fieldAlong, Finset.sum_mul]
  refine Finset.sum_congr rfl fun j _ => Finset.sum_congr rfl fun k _ => Finset.sum_congr rfl fun l _ => ?_
  ring

theorem fieldAlong_3 (r h : V3 ℝ) (i : Fin 3) (t : ℝ) (hr : rsq (along r h t) ≠ 0) :
    HasDerivAt (fieldAlong r h i 3) (fieldAlong r h i 4 t) t := by
  have key := HasDerivAt.fun_sum (u := Finset.univ) fun j _ => HasDerivAt.fun_sum (u := Finset.univ) fun k _ => HasDerivAt.fun_sum (u := Finset.univ) fun l _ => ((((green_at4 r h t hr i j k l).mul_const (ix h j)).mul_const (ix h k)).mul_const (ix h l))
  refine HasDerivAt.congr_deriv (f := fieldAlong r h i 3) key ?_
  simp only [fieldAlong, Finset.sum_mul]
  refine Finset.sum_congr rfl fun j _ => Finset.sum_congr rfl fun k _ => Finset.sum_congr rfl fun l _ => Finset.sum_congr rfl fun m _ => ?_
  ring

theorem fieldAlong_step (r h : V3 ℝ) (i : Fin 3) (t : ℝ) (hr : rsq (along r h t) ≠ 0) (n : ℕ) (hn : n < 4) :
    HasDerivAt (fieldAlong r h i n) (fieldAlong r h i (n + 1) t) t := by
  interval_cases n
  · exact fieldAlong_0 r h i t hr
  · exact fieldAlong_1 r h i t hr
  · exact fieldAlong_2 r h i t hr
  · exact fieldAlong_3 r h i t hr

/-- The derivatives along `h` as contractions. -/
def potAlong (r h : V3 ℝ) : ℕ → ℝ → ℝ
  | 0 => fun t => (green05 (along r h t)).t0
  | 1 => fun t => ∑ i, (green05 (along r h t)).t1.at i * ix h i
  | 2 => fun t => ∑ i, ∑ j, (green05 (along r h t)).t2.at i j * ix h i * ix h j
  | 3 => fun t => ∑ i, ∑ j, ∑ k, (green05 (along r h t)).t3.at i j k * ix h i * ix h j * ix h k
  | 4 => fun t => ∑ i, ∑ j, ∑ k, ∑ l, (green05 (along r h t)).t4.at i j k l * ix h i * ix h j * ix h k * ix h l
  | 5 => fun t => ∑ i, ∑ j, ∑ k, ∑ l, ∑ m, (green05 (along r h t)).t5.at i j k l m * ix h i * ix h j * ix h k * ix h l * ix h m
  | _ => fun _ => 0

theorem potAlong_0 (r h : V3 ℝ) (t : ℝ) (hr : rsq (along r h t) ≠ 0) :
    HasDerivAt (potAlong r h 0) (potAlong r h 1 t) t := by
  have key := (green_at0 r h t hr)
  refine HasDerivAt.congr_deriv (f := potAlong r h 0) key ?_
  simp only [potAlong, Finset.sum_mul]

theorem potAlong_1 (r h : V3 ℝ) (t : ℝ) (hr : rsq (along r h t) ≠ 0) :
    HasDerivAt (potAlong r h 1) (potAlong r h 2 t) t := by
  have key := HasDerivAt.fun_sum (u := Finset.univ) fun i _ => ((green_at1 r h t hr i).mul_const (ix h i))
  refine HasDerivAt.congr_deriv (f := potAlong r h 1) key ?_
  simp only [potAlong, Finset.sum_mul]
  refine Finset.sum_congr rfl fun i _ => Finset.sum_congr rfl fun j _ => ?_
  ring

theorem potAlong_2 (r h : V3 ℝ) (t : ℝ) (hr : rsq (along r h t) ≠ 0) :
    HasDerivAt (potAlong r h 2) (potAlong r h 3 t) t := by
  have key := HasDerivAt.fun_sum (u := Finset.univ) fun i _ => HasDerivAt.fun_sum (u := Finset.univ) fun j _ => (((green_at2 r h t hr i j).mul_const (ix h i)).mul_const (ix h j))
  refine HasDerivAt.congr_deriv (f := potAlong r h 2) key ?_
  simp only [potAlong, Finset.sum_mul]
  refine Finset.sum_congr rfl fun i _ => Finset.sum_congr rfl fun j _ => Finset.sum_congr rfl fun k _ => ?_
  ring

theorem potAlong_3 (r h : V3 ℝ) (t : ℝ) (hr : rsq (along r h t) ≠ 0) :
    HasDerivAt (potAlong r h 3) (potAlong r h 4 t) t := by
  have key := HasDerivAt.fun_sum (u := Finset.univ) fun i _ => HasDerivAt.fun_sum (u := Finset.univ) fun j _ => HasDerivAt.fun_sum (u := Finset.univ) fun k _ => ((((green_at3 r h t hr i j k).mul_const (ix h i)).mul_const (ix h j)).mul_const (ix h k))
  refine HasDerivAt.congr_deriv (f := potAlong r h 3) key ?_
  simp only [potAlong, Finset.sum_mul]
  refine Finset.sum_congr rfl fun i _ => Finset.sum_congr rfl fun j _ => Finset.sum_congr rfl fun k _ => Finset.sum_congr rfl fun l _ => ?_
  ring

theorem potAlong_4 (r h : V3 ℝ) (t : ℝ) (hr : rsq (along r h t) ≠ 0) :
    HasDerivAt (potAlong r h 4) (potAlong r h 5 t) t := by
  have key := HasDerivAt.fun_sum (u := Finset.univ) fun i _ => HasDerivAt.fun_sum (u := Finset.univ) fun j _ => HasDerivAt.fun_sum (u := Finset.univ) fun k _ => HasDerivAt.fun_sum (u := Finset.univ) fun l _ => (((((green_at4 r h t hr i j k l).mul_const (ix h i)).mul_const (ix h j)).mul_const (ix h k)).mul_const (ix h l))
  refine HasDerivAt.congr_deriv (f := potAlong r h 4) key ?_
  simp only [potAlong, Finset.sum_mul]
  refine Finset.sum_congr rfl fun i _ => Finset.sum_congr rfl fun j _ => Finset.sum_congr rfl fun k _ => Finset.sum_congr rfl fun l _ => Finset.sum_congr rfl fun m _ => ?_
  ring

theorem potAlong_step (r h : V3 ℝ) (t : ℝ) (hr : rsq (along r h t) ≠ 0) (n : ℕ) (hn : n < 5) :
    HasDerivAt (potAlong r h n) (potAlong r h (n + 1) t) t := by
  interval_cases n
  · exact potAlong_0 r h t hr
  · exact potAlong_1 r h t hr
  · exact potAlong_2 r h t hr
  · exact potAlong_3 r h t hr
  · exact potAlong_4 r h t hr

theorem iter_of_tower (F : ℕ → ℝ → ℝ) (N : ℕ)
    (hF : ∀ n < N, ∀ᶠ t in nhds (0 : ℝ), HasDerivAt (F n) (F (n + 1) t) t) :
    ∀ n ≤ N, iteratedDeriv n (F 0) =ᶠ[nhds 0] F n := by
  intro n
  induction n with
  | zero =>
    intro _
    rw [iteratedDeriv_zero]
  | succ n ih =>
    intro hn
    rw [iteratedDeriv_succ]
    have h1 := (ih (by omega)).deriv
    refine h1.trans ?_
    filter_upwards [hF n (by omega)] with t ht
    exact ht.deriv

theorem rsq_along_near (r h : V3 ℝ) (hr : rsq r ≠ 0) : ∀ᶠ t in nhds (0 : ℝ), rsq (along r h t) ≠ 0 := by
  have hc : ContinuousAt (fun t => rsq (along r h t)) 0 := (hasDeriv_rsq r h 0).continuousAt
  have h0 : rsq (along r h 0) = rsq r := by simp [along]
  exact hc.eventually_ne (by rw [h0]; exact hr)

theorem along_zero (r h : V3 ℝ) : along r h 0 = r := by simp [along]

theorem field_iter (r h : V3 ℝ) (i : Fin 3) (hr : rsq r ≠ 0) (n : ℕ) (hn : n ≤ 4) :
    iteratedDeriv n (fun t => (green05 (along r h t)).t1.at i) 0 = fieldAlong r h i n 0 :=
  (iter_of_tower (fieldAlong r h i) 4
    (fun n hn => (rsq_along_near r h hr).mono fun t ht => fieldAlong_step r h i t ht n hn) n hn).self_of_nhds

theorem pot_iter (r h : V3 ℝ) (hr : rsq r ≠ 0) (n : ℕ) (hn : n ≤ 5) :
    iteratedDeriv n (fun t => (green05 (along r h t)).t0) 0 = potAlong r h n 0 :=
  (iter_of_tower (potAlong r h) 5
    (fun n hn => (rsq_along_near r h hr).mono fun t ht => potAlong_step r h t ht n hn) n hn).self_of_nhds

end

end Shamrock.Fmm
