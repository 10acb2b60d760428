import Mathlib.Tactic.Ring
import Mathlib.Tactic.LinearCombination
import Verif.Model.FmmSpec

/-!
The operator `*` of the symmetric tensors is the full contraction.
-/

namespace Shamrock.Fmm

open Shamrock (V3)

theorem mulI11 (a : SymT1) (b : SymT1) : (a * b : ℝ) = a.inner1 b := rfl
theorem mulI21 (a : SymT2) (b : SymT1) : (a * b : SymT1) = a.inner1 b := rfl
theorem mulI22 (a : SymT2) (b : SymT2) : (a * b : ℝ) = a.inner2 b := rfl
theorem mulI31 (a : SymT3) (b : SymT1) : (a * b : SymT2) = a.inner1 b := rfl
theorem mulI32 (a : SymT3) (b : SymT2) : (a * b : SymT1) = a.inner2 b := rfl
theorem mulI33 (a : SymT3) (b : SymT3) : (a * b : ℝ) = a.inner3 b := rfl
theorem mulI41 (a : SymT4) (b : SymT1) : (a * b : SymT3) = a.inner1 b := rfl
theorem mulI42 (a : SymT4) (b : SymT2) : (a * b : SymT2) = a.inner2 b := rfl
theorem mulI43 (a : SymT4) (b : SymT3) : (a * b : SymT1) = a.inner3 b := rfl
theorem mulI44 (a : SymT4) (b : SymT4) : (a * b : ℝ) = a.inner4 b := rfl
theorem mulI51 (a : SymT5) (b : SymT1) : (a * b : SymT4) = a.inner1 b := rfl
theorem mulI52 (a : SymT5) (b : SymT2) : (a * b : SymT3) = a.inner2 b := rfl
theorem mulI53 (a : SymT5) (b : SymT3) : (a * b : SymT2) = a.inner3 b := rfl
theorem mulI54 (a : SymT5) (b : SymT4) : (a * b : SymT1) = a.inner4 b := rfl
theorem mulI55 (a : SymT5) (b : SymT5) : (a * b : ℝ) = a.inner5 b := rfl

theorem con11 : ∀ (a : SymT1) (b : SymT1), (a * b : ℝ) = ∑ i, a.at i * b.at i := by
  intro a b 
  all_goals
    simp only [Fin.sum_univ_three, mulI11, SymT1.inner1, Fin.zero_eta, Fin.mk_one, Fin.reduceFinMk, SymT1.at] <;> ring

theorem con21 : ∀ (a : SymT2) (b : SymT1) (i : Fin 3), (a * b : SymT1).at i = ∑ j, a.at i j * b.at j := by
  intro a b i
  fin_cases i
  all_goals
    simp only [Fin.sum_univ_three, mulI21, SymT2.inner1, Fin.zero_eta, Fin.mk_one, Fin.reduceFinMk, SymT1.at, SymT2.at, SymT2.slice] <;> ring

theorem con12 : ∀ (a : SymT2) (b : SymT1) (i : Fin 3), (b * a : SymT1).at i = ∑ j, a.at i j * b.at j := by
  intro a b i
  exact con21 a b i

theorem con22 : ∀ (a : SymT2) (b : SymT2), (a * b : ℝ) = ∑ i, ∑ j, a.at i j * b.at i j := by
  intro a b 
  all_goals
    simp only [Fin.sum_univ_three, mulI22, SymT2.inner2, Fin.zero_eta, Fin.mk_one, Fin.reduceFinMk, SymT1.at, SymT2.at, SymT2.slice] <;> ring

theorem con31 : ∀ (a : SymT3) (b : SymT1) (i j : Fin 3), (a * b : SymT2).at i j = ∑ k, a.at i j k * b.at k := by
  intro a b i j
  fin_cases i
  all_goals fin_cases j
  all_goals
    simp only [Fin.sum_univ_three, mulI31, SymT3.inner1, Fin.zero_eta, Fin.mk_one, Fin.reduceFinMk, SymT1.at, SymT2.at, SymT3.at, SymT2.slice, SymT3.slice] <;> ring

theorem con13 : ∀ (a : SymT3) (b : SymT1) (i j : Fin 3), (b * a : SymT2).at i j = ∑ k, a.at i j k * b.at k := by
  intro a b i j
  exact con31 a b i j

theorem con32 : ∀ (a : SymT3) (b : SymT2) (i : Fin 3), (a * b : SymT1).at i = ∑ j, ∑ k, a.at i j k * b.at j k := by
  intro a b i
  fin_cases i
  all_goals
    simp only [Fin.sum_univ_three, mulI32, SymT3.inner2, Fin.zero_eta, Fin.mk_one, Fin.reduceFinMk, SymT1.at, SymT2.at, SymT3.at, SymT2.slice, SymT3.slice] <;> ring

theorem con23 : ∀ (a : SymT3) (b : SymT2) (i : Fin 3), (b * a : SymT1).at i = ∑ j, ∑ k, a.at i j k * b.at j k := by
  intro a b i
  exact con32 a b i

theorem con33 : ∀ (a : SymT3) (b : SymT3), (a * b : ℝ) = ∑ i, ∑ j, ∑ k, a.at i j k * b.at i j k := by
  intro a b 
  all_goals
    simp only [Fin.sum_univ_three, mulI33, SymT3.inner3, Fin.zero_eta, Fin.mk_one, Fin.reduceFinMk, SymT1.at, SymT2.at, SymT3.at, SymT2.slice, SymT3.slice] <;> ring

theorem con41 : ∀ (a : SymT4) (b : SymT1) (i j k : Fin 3), (a * b : SymT3).at i j k = ∑ l, a.at i j k l * b.at l := by
  intro a b i j k
  fin_cases i
  all_goals fin_cases j
  all_goals fin_cases k
  all_goals
    simp only [Fin.sum_univ_three, mulI41, SymT4.inner1, Fin.zero_eta, Fin.mk_one, Fin.reduceFinMk, SymT1.at, SymT2.at, SymT3.at, SymT4.at, SymT2.slice, SymT3.slice, SymT4.slice] <;> ring

theorem con14 : ∀ (a : SymT4) (b : SymT1) (i j k : Fin 3), (b * a : SymT3).at i j k = ∑ l, a.at i j k l * b.at l := by
  intro a b i j k
  exact con41 a b i j k

theorem con42 : ∀ (a : SymT4) (b : SymT2) (i j : Fin 3), (a * b : SymT2).at i j = ∑ k, ∑ l, a.at i j k l * b.at k l := by
  intro a b i j
  fin_cases i
  all_goals fin_cases j
  all_goals
    simp only [Fin.sum_univ_three, mulI42, SymT4.inner2, Fin.zero_eta, Fin.mk_one, Fin.reduceFinMk, SymT1.at, SymT2.at, SymT3.at, SymT4.at, SymT2.slice, SymT3.slice, SymT4.slice] <;> ring

theorem con24 : ∀ (a : SymT4) (b : SymT2) (i j : Fin 3), (b * a : SymT2).at i j = ∑ k, ∑ l, a.at i j k l * b.at k l := by
  intro a b i j
  exact con42 a b i j

theorem con43 : ∀ (a : SymT4) (b : SymT3) (i : Fin 3), (a * b : SymT1).at i = ∑ j, ∑ k, ∑ l, a.at i j k l * b.at j k l := by
  intro a b i
  fin_cases i
  all_goals
    simp only [Fin.sum_univ_three, mulI43, SymT4.inner3, Fin.zero_eta, Fin.mk_one, Fin.reduceFinMk, SymT1.at, SymT2.at, SymT3.at, SymT4.at, SymT2.slice, SymT3.slice, SymT4.slice] <;> ring

theorem con34 : ∀ (a : SymT4) (b : SymT3) (i : Fin 3), (b * a : SymT1).at i = ∑ j, ∑ k, ∑ l, a.at i j k l * b.at j k l := by
  intro a b i
  exact con43 a b i

theorem con44 : ∀ (a : SymT4) (b : SymT4), (a * b : ℝ) = ∑ i, ∑ j, ∑ k, ∑ l, a.at i j k l * b.at i j k l := by
  intro a b 
  all_goals
    simp only [Fin.sum_univ_three, mulI44, SymT4.inner4, Fin.zero_eta, Fin.mk_one, Fin.reduceFinMk, SymT1.at, SymT2.at, SymT3.at, SymT4.at, SymT2.slice, SymT3.slice, SymT4.slice] <;> ring

theorem con51 : ∀ (a : SymT5) (b : SymT1) (i j k l : Fin 3), (a * b : SymT4).at i j k l = ∑ m, a.at i j k l m * b.at m := by
  intro a b i j k l
  fin_cases i
  all_goals fin_cases j
  all_goals fin_cases k
  all_goals fin_cases l
  all_goals
    simp only [Fin.sum_univ_three, mulI51, SymT5.inner1, Fin.zero_eta, Fin.mk_one, Fin.reduceFinMk, SymT1.at, SymT2.at, SymT3.at, SymT4.at, SymT5.at, SymT2.slice, SymT3.slice, SymT4.slice, SymT5.slice] <;> ring

theorem con15 : ∀ (a : SymT5) (b : SymT1) (i j k l : Fin 3), (b * a : SymT4).at i j k l = ∑ m, a.at i j k l m * b.at m := by
  intro a b i j k l
  exact con51 a b i j k l

theorem con52 : ∀ (a : SymT5) (b : SymT2) (i j k : Fin 3), (a * b : SymT3).at i j k = ∑ l, ∑ m, a.at i j k l m * b.at l m := by
  intro a b i j k
  fin_cases i
  all_goals fin_cases j
  all_goals fin_cases k
  all_goals
    simp only [Fin.sum_univ_three, mulI52, SymT5.inner2, Fin.zero_eta, Fin.mk_one, Fin.reduceFinMk, SymT1.at, SymT2.at, SymT3.at, SymT4.at, SymT5.at, SymT2.slice, SymT3.slice, SymT4.slice, SymT5.slice] <;> ring

theorem con25 : ∀ (a : SymT5) (b : SymT2) (i j k : Fin 3), (b * a : SymT3).at i j k = ∑ l, ∑ m, a.at i j k l m * b.at l m := by
  intro a b i j k
  exact con52 a b i j k

theorem con53 : ∀ (a : SymT5) (b : SymT3) (i j : Fin 3), (a * b : SymT2).at i j = ∑ k, ∑ l, ∑ m, a.at i j k l m * b.at k l m := by
  intro a b i j
  fin_cases i
  all_goals fin_cases j
  all_goals
    simp only [Fin.sum_univ_three, mulI53, SymT5.inner3, Fin.zero_eta, Fin.mk_one, Fin.reduceFinMk, SymT1.at, SymT2.at, SymT3.at, SymT4.at, SymT5.at, SymT2.slice, SymT3.slice, SymT4.slice, SymT5.slice] <;> ring

theorem con35 : ∀ (a : SymT5) (b : SymT3) (i j : Fin 3), (b * a : SymT2).at i j = ∑ k, ∑ l, ∑ m, a.at i j k l m * b.at k l m := by
  intro a b i j
  exact con53 a b i j

theorem con54 : ∀ (a : SymT5) (b : SymT4) (i : Fin 3), (a * b : SymT1).at i = ∑ j, ∑ k, ∑ l, ∑ m, a.at i j k l m * b.at j k l m := by
  intro a b i
  fin_cases i
  all_goals
    simp only [Fin.sum_univ_three, mulI54, SymT5.inner4, Fin.zero_eta, Fin.mk_one, Fin.reduceFinMk, SymT1.at, SymT2.at, SymT3.at, SymT4.at, SymT5.at, SymT2.slice, SymT3.slice, SymT4.slice, SymT5.slice] <;> ring

theorem con45 : ∀ (a : SymT5) (b : SymT4) (i : Fin 3), (b * a : SymT1).at i = ∑ j, ∑ k, ∑ l, ∑ m, a.at i j k l m * b.at j k l m := by
  intro a b i
  exact con54 a b i

theorem con55 : ∀ (a : SymT5) (b : SymT5), (a * b : ℝ) = ∑ i, ∑ j, ∑ k, ∑ l, ∑ m, a.at i j k l m * b.at i j k l m := by
  intro a b 
  all_goals
    simp only [Fin.sum_univ_three, mulI55, SymT5.inner5, Fin.zero_eta, Fin.mk_one, Fin.reduceFinMk, SymT1.at, SymT2.at, SymT3.at, SymT4.at, SymT5.at, SymT2.slice, SymT3.slice, SymT4.slice, SymT5.slice] <;> ring

end Shamrock.Fmm
