import Verif.Proof.MatExp
import Mathlib.Analysis.SpecialFunctions.Exponential
import Mathlib.Analysis.SpecificLimits.Normed
import Mathlib.Tactic.IntervalCases
import Mathlib.Tactic.Positivity
/-!
Lemmas for C73: the choice of the order, and the action of the matrix exponential on an eigenvector.
-/
namespace Shamrock.Dust

noncomputable section

variable {n : Nat}

theorem sTilde_eq {x : ℝ} (hx : 0 ≤ x) {s : Nat} (h1 : x / 2 ^ s ≤ 3.5397) (h2 : ∀ t < s, 3.5397 < x / 2 ^ t) : sTilde 9 x = s := by
  apply le_antisymm
  · unfold sTilde
    have ht : theta 9 = 3.5397 := rfl
    rw [Nat.ceil_le, ht]
    refine max_le (Nat.cast_nonneg s) ?_
    rcases hx.eq_or_lt with rfl | hx
    · simp
    rw [Real.logb_le_iff_le_rpow (by norm_num) (by positivity), Real.rpow_natCast, div_le_iff₀ (by norm_num)]
    rw [div_le_iff₀ (by positivity)] at h1
    linarith
  · by_contra h
    exact absurd (sTilde_le hx) (not_le.2 (h2 _ (not_le.1 h)))

theorem orderLoop_cases (x : ℝ) : ∀ fuel k, k + fuel = 10 →
    (∃ j, orderLoop 9 x fuel k = (j + 1, j) ∧ k ≤ j ∧ j ≤ 9 ∧ x ≤ theta j ∧ x ≤ theta 9) ∨ orderLoop 9 x fuel k = (10, 9) := by
  intro fuel
  induction fuel with
  | zero => intro k hk; right; rw [show k = 10 from hk]; rfl
  | succ fuel ih =>
    intro k hk
    unfold orderLoop
    split_ifs with h
    · exact Or.inl ⟨k, rfl, le_rfl, by omega, h.1, h.2⟩
    · rcases ih (k + 1) (by omega) with ⟨j, h1, h2, h3⟩ | h1
      · exact Or.inl ⟨j, h1, by omega, h3⟩
      · exact Or.inr h1

theorem theta_vals : theta 2 = 1.6778e-3 ∧ theta 3 = 1.7720e-3 ∧ theta 4 = 1.1354e-1 ∧ theta 5 = 3.2690e-1 ∧ theta 6 = 7.8738e-1 ∧
    theta 7 = 1.4383 ∧ theta 8 = 2.42860 ∧ theta 9 = 3.5397 := ⟨rfl, rfl, rfl, rfl, rfl, rfl, rfl, rfl⟩

theorem order_ok {x : ℝ} (hx : 0 ≤ x) : 2 ≤ (orderScale 9 x).1 ∧ (orderScale 9 x).1 ≤ 9 ∧
    x / 2 ^ (orderScale 9 x).2 ≤ theta (orderScale 9 x).1 ∧ sTilde 9 x ≤ (orderScale 9 x).2 ∧ (orderScale 9 x).2 ≤ sTilde 9 x + 2 := by
  have hl := orderLoop_cases x 8 2 rfl
  have hk : 3 ≤ min 9 (orderLoop 9 x 8 2).1 ∧ min 9 (orderLoop 9 x 8 2).1 ≤ 9 := by
    rcases hl with ⟨j, h, h2, h9, -⟩ | h <;> rw [h] <;> constructor <;> omega
  have hs := sTilde_le hx
  unfold orderScale
  dsimp only
  split_ifs with h3 h2 h1
  · refine ⟨by omega, by omega, ?_, by omega, by omega⟩
    rw [show max 2 (sTilde 9 x + 2) = sTilde 9 x + 2 by omega, pow_add, ← div_div]
    have := h3.2
    show x / 2 ^ sTilde 9 x / 2 ^ 2 ≤ _
    rw [show (9 - 1 : Nat) = 8 from rfl] at this
    linarith
  · refine ⟨by omega, by omega, ?_, by omega, by omega⟩
    rw [show max 1 (sTilde 9 x + 1) = sTilde 9 x + 1 by omega, pow_add, ← div_div]
    have := h2.2
    rw [show (9 - 1 : Nat) = 8 from rfl] at this
    linarith
  · refine ⟨by omega, by omega, ?_, by omega, by omega⟩
    rw [show max 0 (sTilde 9 x) = sTilde 9 x by omega]
    exact h1.2
  · rcases hl with ⟨j, h, hj2, h9, hj, hj9⟩ | h
    · rw [show (9 - 1 : Nat) = 8 from rfl, h]
      refine ⟨hj2, h9, ?_, le_rfl, by omega⟩
      have : sTilde 9 x = 0 := sTilde_eq hx (by rw [pow_zero, div_one]; exact hj9) (fun t ht => absurd ht (Nat.not_lt_zero t))
      rw [this, pow_zero, div_one]
      exact hj
    · rw [show (9 - 1 : Nat) = 8 from rfl, h]
      exact ⟨(by decide : 2 ≤ 9), le_rfl, hs, le_rfl, by omega⟩

theorem order_lt {x : ℝ} (h : x / 2 ^ sTilde 9 x ≤ 3.14952) : (orderScale 9 x).1 ≤ 8 := by
  have hl := orderLoop_cases x 8 2 rfl
  have t6 : theta 6 = 7.8738e-1 := rfl
  unfold orderScale
  dsimp only
  rw [show (9 - 1 : Nat) = 8 from rfl]
  split_ifs with h3 h2 h1
  · show min 9 _ - 3 ≤ 8; omega
  · show min 9 _ - 2 ≤ 8; omega
  · show min 9 _ - 1 ≤ 8; omega
  · rcases hl with ⟨j, hj, -, h9, -⟩ | hj
    · rw [hj] at h3 ⊢
      by_contra hc
      have : j = 9 := by
        have : ¬ j ≤ 8 := hc
        omega
      subst this
      exact h3 ⟨by decide, by rw [show min 9 (9 + 1) - 3 = 6 from rfl, t6]; linarith⟩
    · rw [hj] at h3
      exact absurd ⟨by decide, by rw [show min 9 10 - 3 = 6 from rfl, t6]; linarith⟩ h3

theorem order_nine {x : ℝ} (hx : 0 ≤ x) (h : 3.14952 < x / 2 ^ sTilde 9 x) : (orderScale 9 x).1 = 9 ∧ (orderScale 9 x).2 = sTilde 9 x := by
  have hl := orderLoop_cases x 8 2 rfl
  obtain ⟨t2, t3, t4, t5, t6, t7, t8, t9⟩ := theta_vals
  have hx1 : 3.14952 < x := h.trans_le (div_le_self hx (one_le_pow₀ (by norm_num)))
  have hj9 : orderLoop 9 x 8 2 = (10, 9) := by
    rcases hl with ⟨j, hj, h2, h9, hje, -⟩ | hj
    · have : j = 9 := by
        by_contra hc
        have hj8 : j ≤ 8 := by omega
        interval_cases j
        · rw [t2] at hje; norm_num at hje hx1; linarith
        · rw [t3] at hje; norm_num at hje hx1; linarith
        · rw [t4] at hje; norm_num at hje hx1; linarith
        · rw [t5] at hje; norm_num at hje hx1; linarith
        · rw [t6] at hje; norm_num at hje hx1; linarith
        · rw [t7] at hje; norm_num at hje hx1; linarith
        · rw [t8] at hje; norm_num at hje hx1; linarith
      rw [hj, this]
    · exact hj
  unfold orderScale
  dsimp only
  rw [show (9 - 1 : Nat) = 8 from rfl, hj9, show min 9 (10, 9).1 = 9 from rfl]
  norm_num at h
  rw [if_neg, if_neg, if_neg]
  · exact ⟨rfl, rfl⟩
  · rw [show (9 - 1 : Nat) = 8 from rfl, t8]; norm_num; linarith
  · rw [show (9 - 2 : Nat) = 7 from rfl, t7]; norm_num; linarith
  · rw [show (9 - 3 : Nat) = 6 from rfl, t6]; norm_num; linarith

/-- The coefficients are `1 / i!`, to `1e-15`. -/
theorem coef_close {i : Nat} (h : i < 30) : |coef i * i.factorial - 1| ≤ 1e-15 := by
  unfold coef bexpCoef
  interval_cases i <;> norm_num [Nat.factorial, abs_le]

/-- The Taylor polynomial of a number. -/
def scalPoly (m : Nat) (x : ℝ) : ℝ := ∑ i ∈ Finset.range (m + 1), coef i * x ^ i

theorem exp_tail {x : ℝ} (hx : 0 ≤ x) (m : Nat) :
    Real.exp x - ∑ i ∈ Finset.range m, x ^ i / i.factorial ≤ x ^ m / m.factorial * Real.exp x := by
  have hs := Real.summable_pow_div_factorial x
  have he : Real.exp x = ∑' i : ℕ, x ^ i / (i.factorial : ℝ) := by rw [Real.exp_eq_exp_ℝ, NormedSpace.exp_eq_tsum_div]
  have h1 := hs.sum_add_tsum_nat_add m
  have h2 : ∑' i : ℕ, x ^ (i + m) / ((i + m).factorial : ℝ) ≤ ∑' i : ℕ, x ^ m / m.factorial * (x ^ i / (i.factorial : ℝ)) := by
    refine Summable.tsum_le_tsum (fun i => ?_) ((summable_nat_add_iff m).2 hs) (hs.mul_left _)
    rw [pow_add, div_mul_div_comm, mul_comm (x ^ i)]
    apply div_le_div_of_nonneg_left (by positivity) (by positivity)
    rw [mul_comm]
    exact_mod_cast Nat.le_of_dvd (Nat.factorial_pos _) (Nat.factorial_mul_factorial_dvd_factorial_add i m)
  rw [tsum_mul_left, ← he] at h2
  rw [← he] at h1
  linarith

theorem scalPoly_bounds {x : ℝ} (hx : 0 ≤ x) {m : Nat} (hm : m < 30) {eps : ℝ} (he : x ^ (m + 1) / (m + 1).factorial ≤ eps) :
    (1 - 1e-15) * (1 - eps) * Real.exp x ≤ scalPoly m x ∧ scalPoly m x ≤ (1 + 1e-15) * Real.exp x := by
  have h1 := exp_tail hx (m + 1)
  have h2 := Real.sum_le_exp_of_nonneg hx (m + 1)
  have h0 : (0 : ℝ) < Real.exp x := Real.exp_pos x
  have hc : ∀ i ∈ Finset.range (m + 1), (1 - 1e-15) * (x ^ i / i.factorial) ≤ coef i * x ^ i ∧ coef i * x ^ i ≤ (1 + 1e-15) * (x ^ i / i.factorial) := by
    intro i hi
    have hf : (0 : ℝ) < i.factorial := by exact_mod_cast Nat.factorial_pos i
    have hci := abs_le.1 (coef_close (i := i) (by have := Finset.mem_range.1 hi; omega))
    have hxi : 0 ≤ x ^ i / i.factorial := by positivity
    have hr : coef i * x ^ i = coef i * i.factorial * (x ^ i / i.factorial) := by field_simp
    rw [hr]
    constructor
    · exact mul_le_mul_of_nonneg_right (by linarith) hxi
    · exact mul_le_mul_of_nonneg_right (by linarith) hxi
  have hlo := Finset.sum_le_sum fun i hi => (hc i hi).1
  have hhi := Finset.sum_le_sum fun i hi => (hc i hi).2
  rw [← Finset.mul_sum] at hlo hhi
  have h3 : x ^ (m + 1) / (m + 1).factorial * Real.exp x ≤ eps * Real.exp x := mul_le_mul_of_nonneg_right he h0.le
  constructor
  · refine le_trans ?_ hlo
    rw [mul_assoc]
    exact mul_le_mul_of_nonneg_left (by linarith) (by norm_num)
  · exact hhi.trans (mul_le_mul_of_nonneg_left h2 (by norm_num))

theorem pow_mulVec {M : Mat n} {v : Fin n → ℝ} {y : ℝ} (h : M.mulVec v = y • v) : ∀ k : Nat, (M ^ k).mulVec v = y ^ k • v := by
  intro k
  induction k with
  | zero => rw [pow_zero, pow_zero, Matrix.one_mulVec, one_smul]
  | succ k ih => rw [pow_succ, ← Matrix.mulVec_mulVec, h, Matrix.mulVec_smul, ih, smul_smul, ← pow_succ']

theorem taylorPoly_mulVec {X : Mat n} {v : Fin n → ℝ} {x : ℝ} (h : X.mulVec v = x • v) (m : Nat) :
    (taylorPoly m X).mulVec v = scalPoly m x • v := by
  unfold taylorPoly scalPoly
  rw [Matrix.sum_mulVec, Finset.sum_smul]
  apply Finset.sum_congr rfl
  intro i _
  rw [Matrix.smul_mulVec, pow_mulVec h, smul_smul]

theorem taylorPoly_transpose (X : Mat n) (m : Nat) : (taylorPoly m X).transpose = taylorPoly m X.transpose := by
  unfold taylorPoly
  rw [Matrix.transpose_sum]
  apply Finset.sum_congr rfl
  intro i _
  rw [Matrix.transpose_smul, Matrix.transpose_pow]

/-- An eigenvalue is at most the largest sum of a row. -/
theorem eig_le {A : Mat n} {v : Fin n → ℝ} {x : ℝ} (h : A.mulVec v = x • v) (hv : v ≠ 0) : |x| ≤ l1Norm A := by
  obtain ⟨i0, hi0⟩ := Function.ne_iff.1 hv
  obtain ⟨i, -, hi⟩ := Finset.exists_max_image Finset.univ (fun i => |v i|) ⟨i0, Finset.mem_univ i0⟩
  have hpos : 0 < |v i| := (abs_pos.2 hi0).trans_le (hi i0 (Finset.mem_univ _))
  have h1 : |x| * |v i| ≤ l1Norm A * |v i| := by
    have : x * v i = ∑ j, A i j * v j := (congrFun h i).symm
    rw [← abs_mul, this]
    refine (Finset.abs_sum_le_sum_abs _ _).trans ?_
    refine le_trans ?_ (mul_le_mul_of_nonneg_right (row_le A i) hpos.le)
    rw [Finset.sum_mul]
    apply Finset.sum_le_sum
    intro j _
    rw [abs_mul]
    exact mul_le_mul_of_nonneg_left (hi j (Finset.mem_univ _)) (abs_nonneg _)
  exact le_of_mul_le_mul_right h1 hpos

/-- The degree for a given `k_star`. -/
def degOf (k : Nat) : Nat := seqQk.getD (k - 1) 0 * seqRk.getD (k - 1) 0

/-- For a scaled norm within the bound, the first term left out is below `2e-16`. -/
theorem trunc_small {x : ℝ} (hx : 0 ≤ x) {k : Nat} (h2 : 2 ≤ k) (h9 : k ≤ 9) (h : x ≤ theta k) :
    x ^ (degOf k + 1) / (degOf k + 1).factorial ≤ 2e-16 := by
  refine le_trans (div_le_div_of_nonneg_right (pow_le_pow_left₀ hx h _) (Nat.cast_nonneg _)) ?_
  interval_cases k <;> norm_num [degOf, seqQk, seqRk, theta, seqNtheta, Nat.factorial]

end

end Shamrock.Dust
