import Verif.Proof.MatExpEig
import Mathlib.Analysis.Normed.Algebra.MatrixExponential
import Mathlib.Analysis.Normed.Algebra.Exponential
/-!
Lemmas for C73: the distance between the power of a Taylor polynomial and the exponential, in a normed algebra.
-/
namespace Shamrock.Dust

noncomputable section

section Alg

variable {R : Type*} [NormedRing R] [NormedAlgebra ℝ R] [NormOneClass R] [CompleteSpace R]

theorem term_norm (X : R) (i : Nat) : ‖((i.factorial : ℝ)⁻¹) • X ^ i‖ ≤ ‖X‖ ^ i / i.factorial := by
  rw [norm_smul, norm_inv, Real.norm_natCast, div_eq_inv_mul]
  exact mul_le_mul_of_nonneg_left (norm_pow_le X i) (by positivity)

theorem norm_exp_bound (X : R) : ‖NormedSpace.exp X‖ ≤ Real.exp ‖X‖ := by
  have he : NormedSpace.exp X = ∑' i : ℕ, ((i.factorial : ℝ)⁻¹) • X ^ i := congrFun (NormedSpace.exp_eq_tsum ℝ) X
  have hs : Summable fun i : ℕ => ‖((i.factorial : ℝ)⁻¹) • X ^ i‖ := NormedSpace.norm_expSeries_summable' (𝕂 := ℝ) X
  have hr : Real.exp ‖X‖ = ∑' i : ℕ, ‖X‖ ^ i / (i.factorial : ℝ) := by rw [Real.exp_eq_exp_ℝ, NormedSpace.exp_eq_tsum_div]
  rw [he, hr]
  exact (norm_tsum_le_tsum_norm hs).trans (hs.tsum_le_tsum (term_norm X) (Real.summable_pow_div_factorial _))

theorem poly_dist (X : R) {m : Nat} (hm : m < 30) {x eps : ℝ} (hx : ‖X‖ ≤ x) (he : x ^ (m + 1) / (m + 1).factorial ≤ eps) :
    ‖(∑ i ∈ Finset.range (m + 1), coef i • X ^ i) - NormedSpace.exp X‖ ≤ (1e-15 + eps) * Real.exp x := by
  have hx0 : 0 ≤ ‖X‖ := norm_nonneg X
  have hE : NormedSpace.exp X = ∑' i : ℕ, ((i.factorial : ℝ)⁻¹) • X ^ i := congrFun (NormedSpace.exp_eq_tsum ℝ) X
  have hs : Summable fun i : ℕ => ((i.factorial : ℝ)⁻¹) • X ^ i := NormedSpace.expSeries_summable' (𝕂 := ℝ) X
  have hsn : Summable fun i : ℕ => ‖((i.factorial : ℝ)⁻¹) • X ^ i‖ := NormedSpace.norm_expSeries_summable' (𝕂 := ℝ) X
  have hsr := Real.summable_pow_div_factorial ‖X‖
  have hr : Real.exp ‖X‖ = ∑' i : ℕ, ‖X‖ ^ i / (i.factorial : ℝ) := by rw [Real.exp_eq_exp_ℝ, NormedSpace.exp_eq_tsum_div]
  have hsplit := (hs.sum_add_tsum_nat_add (m + 1)).trans hE.symm
  have hsplitr := (hsr.sum_add_tsum_nat_add (m + 1)).trans hr.symm
  have htail : ‖∑' i : ℕ, (((i + (m + 1)).factorial : ℝ)⁻¹) • X ^ (i + (m + 1))‖ ≤ eps * Real.exp x := by
    have hsn' : Summable fun i : ℕ => ‖(((i + (m + 1)).factorial : ℝ)⁻¹) • X ^ (i + (m + 1))‖ :=
      hsn.comp_injective (add_left_injective (m + 1))
    have hsr' : Summable fun i : ℕ => ‖X‖ ^ (i + (m + 1)) / ((i + (m + 1)).factorial : ℝ) :=
      hsr.comp_injective (add_left_injective (m + 1))
    refine (norm_tsum_le_tsum_norm hsn').trans ?_
    refine (Summable.tsum_le_tsum (fun i => term_norm X (i + (m + 1))) hsn' hsr').trans ?_
    have h1 := exp_tail hx0 (m + 1)
    have h2 : ‖X‖ ^ (m + 1) / (m + 1).factorial ≤ eps :=
      (div_le_div_of_nonneg_right (pow_le_pow_left₀ hx0 hx _) (Nat.cast_nonneg _)).trans he
    have h3 : ‖X‖ ^ (m + 1) / (m + 1).factorial * Real.exp ‖X‖ ≤ eps * Real.exp x :=
      mul_le_mul h2 (Real.exp_le_exp.2 hx) (Real.exp_pos _).le (le_trans (by positivity) h2)
    linarith
  have hhead : ‖(∑ i ∈ Finset.range (m + 1), coef i • X ^ i) - ∑ i ∈ Finset.range (m + 1), ((i.factorial : ℝ)⁻¹) • X ^ i‖ ≤ 1e-15 * Real.exp x := by
    rw [← Finset.sum_sub_distrib]
    refine (norm_sum_le _ _).trans ?_
    have h1 : ∀ i ∈ Finset.range (m + 1), ‖coef i • X ^ i - ((i.factorial : ℝ)⁻¹) • X ^ i‖ ≤ 1e-15 * (‖X‖ ^ i / i.factorial) := by
      intro i hi
      have hc := coef_close (i := i) (by have := Finset.mem_range.1 hi; omega)
      have hf : (0 : ℝ) < i.factorial := by exact_mod_cast Nat.factorial_pos i
      have hd : coef i - (i.factorial : ℝ)⁻¹ = (coef i * i.factorial - 1) * (i.factorial : ℝ)⁻¹ := by field_simp
      rw [← sub_smul, hd, mul_smul, norm_smul, Real.norm_eq_abs]
      exact mul_le_mul hc (term_norm X i) (norm_nonneg _) (by norm_num)
    refine (Finset.sum_le_sum h1).trans ?_
    rw [← Finset.mul_sum]
    refine mul_le_mul_of_nonneg_left ?_ (by norm_num)
    exact (Real.sum_le_exp_of_nonneg hx0 (m + 1)).trans (Real.exp_le_exp.2 hx)
  rw [← hsplit, ← sub_sub, add_mul]
  exact (norm_sub_le _ _).trans (add_le_add hhead htail)

theorem pow_dist (T P : R) {M d : ℝ} (hT : ‖T‖ ≤ M) (hP : ‖P‖ ≤ M) (hd : ‖T - P‖ ≤ d) : ∀ k : Nat,
    ‖T ^ (k + 1) - P ^ (k + 1)‖ ≤ (k + 1) * M ^ k * d := by
  have hM : 0 ≤ M := (norm_nonneg T).trans hT
  have hd0 : 0 ≤ d := (norm_nonneg _).trans hd
  intro k
  induction k with
  | zero => simpa using hd
  | succ k ih =>
    have h : T ^ (k + 1 + 1) - P ^ (k + 1 + 1) = T ^ (k + 1) * (T - P) + (T ^ (k + 1) - P ^ (k + 1)) * P := by
      rw [pow_succ T, pow_succ P, mul_sub, sub_mul]
      abel
    rw [h]
    have h1 : ‖T ^ (k + 1) * (T - P)‖ ≤ M ^ (k + 1) * d :=
      (norm_mul_le _ _).trans (mul_le_mul ((norm_pow_le T _).trans (pow_le_pow_left₀ (norm_nonneg T) hT _)) hd (norm_nonneg _) (by positivity))
    have h2 : ‖(T ^ (k + 1) - P ^ (k + 1)) * P‖ ≤ (k + 1) * M ^ k * d * M :=
      (norm_mul_le _ _).trans (mul_le_mul ih hP (norm_nonneg _) (by positivity))
    refine (norm_add_le _ _).trans ((add_le_add h1 h2).trans (le_of_eq ?_))
    push_cast
    ring

/-- The power of the Taylor polynomial of `A / N` is the exponential of `A`, up to a small error. -/
theorem square_dist (A : R) {m k : Nat} (hm : m < 30) {x : ℝ} (hx : ‖A‖ ≤ (k + 1) * x)
    (he : x ^ (m + 1) / (m + 1).factorial ≤ 2e-16) :
    ‖(∑ i ∈ Finset.range (m + 1), coef i • ((1 / (k + 1) : ℝ) • A) ^ i) ^ (k + 1) - NormedSpace.exp A‖ ≤
      (k + 1) * 2e-15 * (1 + 2e-15) ^ k * Real.exp ((k + 1) * x) := by
  have hk : (0 : ℝ) < k + 1 := by positivity
  have hX : ‖(1 / (k + 1) : ℝ) • A‖ ≤ x := by
    rw [norm_smul, Real.norm_eq_abs, abs_of_pos (by positivity), one_div, inv_mul_le_iff₀ hk]
    exact hx
  have hd := poly_dist _ hm hX he
  have hP : ‖NormedSpace.exp ((1 / (k + 1) : ℝ) • A)‖ ≤ Real.exp x := (norm_exp_bound _).trans (Real.exp_le_exp.2 hX)
  have h0 := Real.exp_pos x
  have hd' : ‖(∑ i ∈ Finset.range (m + 1), coef i • ((1 / (k + 1) : ℝ) • A) ^ i) - NormedSpace.exp ((1 / (k + 1) : ℝ) • A)‖ ≤ 2e-15 * Real.exp x :=
    hd.trans (mul_le_mul_of_nonneg_right (by norm_num) h0.le)
  have hT : ‖∑ i ∈ Finset.range (m + 1), coef i • ((1 / (k + 1) : ℝ) • A) ^ i‖ ≤ (1 + 2e-15) * Real.exp x := by
    have := norm_add_le ((∑ i ∈ Finset.range (m + 1), coef i • ((1 / (k + 1) : ℝ) • A) ^ i) - NormedSpace.exp ((1 / (k + 1) : ℝ) • A))
      (NormedSpace.exp ((1 / (k + 1) : ℝ) • A))
    rw [sub_add_cancel] at this
    linarith
  have hP' : ‖NormedSpace.exp ((1 / (k + 1) : ℝ) • A)‖ ≤ (1 + 2e-15) * Real.exp x := by nlinarith
  have hpow := pow_dist _ _ hT hP' hd' k
  have hA : NormedSpace.exp ((1 / (k + 1) : ℝ) • A) ^ (k + 1) = NormedSpace.exp A := by
    letI : NormedAlgebra ℚ R := NormedAlgebra.restrictScalars ℚ ℝ R
    rw [← NormedSpace.exp_nsmul, ← Nat.cast_smul_eq_nsmul ℝ, smul_smul]
    push_cast
    rw [mul_one_div_cancel hk.ne', one_smul]
  rw [hA] at hpow
  refine hpow.trans (le_of_eq ?_)
  rw [mul_pow, ← Real.exp_nat_mul, show ((k : ℝ) + 1) * x = k * x + x by ring, Real.exp_add]
  ring

end Alg

theorem foldl_max_le {α : Type} (f : α → ℝ) {c : ℝ} : ∀ (l : List α) (a : ℝ), a ≤ c → (∀ x ∈ l, f x ≤ c) →
    l.foldl (fun r i => max r (f i)) a ≤ c := by
  intro l
  induction l with
  | nil => intro a h _; exact h
  | cons y l ih =>
    intro a h hl
    rw [List.foldl_cons]
    exact ih _ (max_le h (hl y List.mem_cons_self)) fun x hx => hl x (List.mem_cons_of_mem _ hx)

section Operator

open scoped Matrix.Norms.Operator

variable {n : Nat}

theorem norm_eq_l1Norm (A : Mat n) : ‖A‖ = l1Norm A := by
  have hrow : ∀ i, ((∑ j, ‖A i j‖₊ : NNReal) : ℝ) = ∑ j, |A i j| := by
    intro i
    push_cast
    rfl
  rw [Matrix.linfty_opNorm_def]
  apply le_antisymm
  · have : (Finset.univ.sup fun i => ∑ j, ‖A i j‖₊) ≤ (⟨l1Norm A, l1Norm_nonneg A⟩ : NNReal) :=
      Finset.sup_le fun i _ => NNReal.coe_le_coe.1 ((hrow i).le.trans (row_le A i))
    exact NNReal.coe_le_coe.2 this
  · refine foldl_max_le _ _ _ (NNReal.coe_nonneg _) fun i _ => ?_
    rw [← hrow i, NNReal.coe_le_coe]
    exact Finset.le_sup (f := fun i => ∑ j, ‖A i j‖₊) (Finset.mem_univ i)

set_option backward.isDefEq.respectTransparency false in
theorem taylor_exp_dist (A : Mat n) {m k : Nat} (hm : m < 30) (he : (l1Norm A / (k + 1)) ^ (m + 1) / (m + 1).factorial ≤ 2e-16) :
    l1Norm (taylorPoly m ((1 / (k + 1) : ℝ) • A) ^ (k + 1) - NormedSpace.exp A) ≤
      (k + 1) * 2e-15 * (1 + 2e-15) ^ k * Real.exp (l1Norm A) := by
  rw [← norm_eq_l1Norm, ← norm_eq_l1Norm]
  rw [← norm_eq_l1Norm] at he
  rcases Nat.eq_zero_or_pos n with rfl | hn
  · rw [Subsingleton.elim (taylorPoly m ((1 / (k + 1) : ℝ) • A) ^ (k + 1) - NormedSpace.exp A) 0, norm_zero]
    positivity
  · have : Nonempty (Fin n) := ⟨⟨0, hn⟩⟩
    have hk : (0 : ℝ) < k + 1 := by positivity
    have h := square_dist (R := Mat n) A (m := m) (k := k) hm (x := ‖A‖ / (k + 1)) (by rw [mul_div_cancel₀ _ hk.ne']) he
    rw [mul_div_cancel₀ _ hk.ne'] at h
    exact h

end Operator

end

end Shamrock.Dust
