import Verif.Proof.MatExpNorm
/-!
C73: the matrix exponential. `l1Norm A` is the largest sum of the absolute values of a row; `taylorPoly m X` is the sum of `coef i • X ^ i`
for `i` up to `m`, `coef i` the coefficients of the code.
-/
namespace Shamrock.Dust

noncomputable section

variable {n : Nat}

/-- What the code calls the scaling: `s` is the least number of halvings that brings the norm to 3.5397 or below. -/
def LeastScale (A : Mat n) (s : Nat) : Prop := l1Norm A / 2 ^ s ≤ 3.5397 ∧ ∀ t < s, 3.5397 < l1Norm A / 2 ^ t

/-- C73 (coefficients). The coefficients are `1 / i!`, with a relative error of at most `1e-15`. -/
theorem C73_coef {i : Nat} (h : i < 30) : |coef i * i.factorial - 1| ≤ 1e-15 := coef_close h

/-- C73 (norm). The norm bounds the sum of the absolute values of every row, and every eigenvalue. -/
theorem C73_norm (A : Mat n) : (∀ i, ∑ j, |A i j| ≤ l1Norm A) ∧
    ∀ (x : ℝ) (v : Fin n → ℝ), A.mulVec v = x • v → v ≠ 0 → |x| ≤ l1Norm A := ⟨row_le A, fun _ _ h hv => eig_le h hv⟩

/-- C73 (scaling). Every matrix has one. -/
theorem C73_scale (A : Mat n) : ∃ s, LeastScale A s := by
  refine ⟨sTilde 9 (l1Norm A), sTilde_le (l1Norm_nonneg A), fun t ht => ?_⟩
  unfold sTilde at ht
  rw [Nat.lt_ceil, lt_max_iff] at ht
  have h9 : theta 9 = 3.5397 := rfl
  have ht' : (t : ℝ) < Real.logb 2 (l1Norm A / theta 9) := by
    rcases ht with h | h
    · exact absurd h (not_lt.2 (Nat.cast_nonneg t))
    · exact h
  have hpos : 0 < l1Norm A := by
    rcases (l1Norm_nonneg A).eq_or_lt with h | h
    · rw [← h, zero_div, Real.logb_zero] at ht'
      exact absurd ht' (not_lt.2 (Nat.cast_nonneg t))
    · exact h
  rw [h9] at ht'
  rw [Real.lt_logb_iff_rpow_lt (by norm_num) (by positivity), Real.rpow_natCast, lt_div_iff₀ (by norm_num)] at ht'
  rw [lt_div_iff₀ (by positivity)]
  linarith

/-- C73 (result). Unless the scaled norm lies in (3.14952, 3.5397] (for which see `C73_oob_defect`), the matrix exponential finishes and is
the Taylor polynomial of degree `m` of the matrix divided by `2 ^ s'`, raised to the power `2 ^ s'`; the first term left out of the
polynomial is at most `2e-16` for the scaled norm. Missing: these scaled norms. -/
theorem C73_exp_partial (A : Mat n) (s : Nat) (hs : LeastScale A s) (h : l1Norm A / 2 ^ s ≤ 3.14952) (h28 : s ≤ 28) : ∃ m s' : Nat, m < 30 ∧
    s ≤ s' ∧ s' ≤ s + 2 ∧ (l1Norm A / 2 ^ s') ^ (m + 1) / (m + 1).factorial ≤ 2e-16 ∧
    matExp 9 A = some (taylorPoly m ((1 / 2 ^ s' : ℝ) • A) ^ (2 ^ s')) := by
  have h0 := l1Norm_nonneg A
  have hst : sTilde 9 (l1Norm A) = s := sTilde_eq h0 hs.1 hs.2
  obtain ⟨h2, h9, hth, hge, hle⟩ := order_ok h0
  have h8 := order_lt (x := l1Norm A) (by rw [hst]; exact h)
  rw [hst] at hge hle
  have hm : degOf (orderScale 9 (l1Norm A)).1 < 30 := by
    generalize (orderScale 9 (l1Norm A)).1 = k at *
    interval_cases k <;> decide
  refine ⟨degOf (orderScale 9 (l1Norm A)).1, (orderScale 9 (l1Norm A)).2, hm, hge, hle, trunc_small (by positivity) h2 h9 hth, ?_⟩
  unfold matExp
  dsimp only
  rw [if_neg (by omega), taylorEval_eq _ _ _ hm]
  simp only [Option.map_some, square_loop, mulScalar_eq]
  rfl

/-- C73 (accuracy). Under the same conditions the result is the exponential of the matrix (the sum of the exponential series): the sums of the
absolute values of the rows of the difference are at most `2 ^ s' * 2e-15 * (1 + 2e-15) ^ (2 ^ s') * exp (norm of A)`. Missing: the
scaled norms of `C73_oob_defect`. -/
theorem C73_accuracy_partial (A : Mat n) (s : Nat) (hs : LeastScale A s) (h : l1Norm A / 2 ^ s ≤ 3.14952) (h28 : s ≤ 28) :
    ∃ (E : Mat n) (s' : Nat), matExp 9 A = some E ∧ s ≤ s' ∧ s' ≤ s + 2 ∧
      ∀ i, ∑ j, |(E - NormedSpace.exp A) i j| ≤ 2 ^ s' * 2e-15 * (1 + 2e-15) ^ (2 ^ s') * Real.exp (l1Norm A) := by
  obtain ⟨m, s', hm, hge, hle, htr, he⟩ := C73_exp_partial A s hs h h28
  refine ⟨_, s', he, hge, hle, fun i => (row_le _ i).trans ?_⟩
  obtain ⟨k, hk⟩ : ∃ k, 2 ^ s' = k + 1 := Nat.exists_eq_succ_of_ne_zero (by positivity)
  have hkr : (2 : ℝ) ^ s' = k + 1 := by exact_mod_cast hk
  rw [hkr] at htr ⊢
  rw [hk]
  refine (taylor_exp_dist A hm htr).trans ?_
  refine mul_le_mul_of_nonneg_right (mul_le_mul_of_nonneg_left ?_ (by positivity)) (Real.exp_pos _).le
  exact pow_le_pow_right₀ (by norm_num) (Nat.le_succ k)

/-- C73 (eigenvectors). The matrix exponential has the eigenvectors of the matrix, and for an eigenvalue `x ≥ 0` its eigenvalue `y` is
`exp x` up to a relative error of about `2e-15 * 2 ^ s'`; it commutes with the matrix. Likewise for eigenvectors on the left. -/
theorem C73_eigen_partial (A : Mat n) (s : Nat) (hs : LeastScale A s) (h : l1Norm A / 2 ^ s ≤ 3.14952) (h28 : s ≤ 28) :
    ∃ (E : Mat n) (s' : Nat), matExp 9 A = some E ∧ s' ≤ s + 2 ∧ E * A = A * E ∧
      ∀ (x : ℝ) (v : Fin n → ℝ), A.mulVec v = x • v → v ≠ 0 → 0 ≤ x →
        ∃ y, (1 - 2e-15) ^ (2 ^ s') * Real.exp x ≤ y ∧ y ≤ (1 + 1e-15) ^ (2 ^ s') * Real.exp x ∧ E.mulVec v = y • v ∧
          ∀ u : Fin n → ℝ, A.transpose.mulVec u = x • u → E.transpose.mulVec u = y • u := by
  obtain ⟨m, s', hm, -, hle, htr, he⟩ := C73_exp_partial A s hs h h28
  have hpw : (0 : ℝ) < 2 ^ s' := by positivity
  refine ⟨_, s', he, hle, ?_, fun x v hv hv0 hx => ⟨scalPoly m (1 / 2 ^ s' * x) ^ (2 ^ s'), ?_, ?_, ?_, fun u hu => ?_⟩⟩
  · have hc : Commute A (taylorPoly m ((1 / 2 ^ s' : ℝ) • A)) := by
      unfold taylorPoly
      refine Commute.sum_right _ _ _ fun i _ => ?_
      exact (((Commute.refl A).smul_right _).pow_right i).smul_right _
    exact (hc.pow_right _).eq.symm
  · have hb := (scalPoly_bounds (x := 1 / 2 ^ s' * x) (by positivity) hm (eps := 2e-16) ?_).1
    · have hlo : (1 - 2e-15) * Real.exp (1 / 2 ^ s' * x) ≤ scalPoly m (1 / 2 ^ s' * x) :=
        le_trans (mul_le_mul_of_nonneg_right (by norm_num) (Real.exp_pos _).le) hb
      have := pow_le_pow_left₀ (mul_nonneg (by norm_num) (Real.exp_pos _).le) hlo (2 ^ s')
      rw [mul_pow, ← Real.exp_nat_mul] at this
      rw [show ((2 ^ s' : ℕ) : ℝ) * (1 / 2 ^ s' * x) = x by push_cast; field_simp] at this
      exact this
    · refine le_trans (div_le_div_of_nonneg_right (pow_le_pow_left₀ (by positivity) ?_ _) (Nat.cast_nonneg _)) htr
      rw [one_div, mul_comm, ← div_eq_mul_inv]
      exact div_le_div_of_nonneg_right ((le_abs_self x).trans (eig_le hv hv0)) hpw.le
  · have hb := (scalPoly_bounds (x := 1 / 2 ^ s' * x) (by positivity) hm (eps := 2e-16) ?_)
    · have h0 : 0 ≤ scalPoly m (1 / 2 ^ s' * x) :=
        le_trans (mul_nonneg (by norm_num) (Real.exp_pos _).le) hb.1
      have := pow_le_pow_left₀ h0 hb.2 (2 ^ s')
      rw [mul_pow, ← Real.exp_nat_mul] at this
      rw [show ((2 ^ s' : ℕ) : ℝ) * (1 / 2 ^ s' * x) = x by push_cast; field_simp] at this
      exact this
    · refine le_trans (div_le_div_of_nonneg_right (pow_le_pow_left₀ (by positivity) ?_ _) (Nat.cast_nonneg _)) htr
      rw [one_div, mul_comm, ← div_eq_mul_inv]
      exact div_le_div_of_nonneg_right ((le_abs_self x).trans (eig_le hv hv0)) hpw.le
  · refine pow_mulVec (taylorPoly_mulVec ?_ m) _
    rw [Matrix.smul_mulVec, hv, smul_smul]
  · rw [Matrix.transpose_pow, taylorPoly_transpose]
    refine pow_mulVec (taylorPoly_mulVec ?_ m) _
    rw [Matrix.transpose_smul, Matrix.smul_mulVec, hu, smul_smul]

/-- Violation: for a scaled norm in (3.14952, 3.5397] the polynomial of degree 30 is chosen, and the array of 30 coefficients, with indices 0
to 29, is read at 30. -/
theorem C73_oob_defect (A : Mat n) (s : Nat) (hs : LeastScale A s) (h : 3.14952 < l1Norm A / 2 ^ s) : matExp 9 A = none := by
  have h0 := l1Norm_nonneg A
  have hst : sTilde 9 (l1Norm A) = s := sTilde_eq h0 hs.1 hs.2
  obtain ⟨h9, -⟩ := order_nine h0 (by rw [hst]; exact h)
  unfold matExp
  dsimp only
  split_ifs
  · rfl
  · rw [h9, show seqRk.getD (9 - 1) 0 = 6 from rfl, show seqQk.getD (9 - 1) 0 = 5 from rfl, taylorEval_oob]
    rfl

/-- The norm of a 1 × 1 matrix. -/
theorem l1Norm_one (a : ℝ) : l1Norm (fun _ _ => a : Mat 1) = |a| := by
  unfold l1Norm
  simp [List.finRange_succ]

/-- A case of `C73_exp_partial`: the number 1, with no halving; the result is within `1e-14` of `e`. -/
example : LeastScale (fun _ _ => 1 : Mat 1) 0 ∧ l1Norm (fun _ _ => 1 : Mat 1) / 2 ^ 0 ≤ 3.14952 := by
  unfold LeastScale
  rw [l1Norm_one]
  refine ⟨⟨by norm_num, fun t ht => absurd ht (Nat.not_lt_zero t)⟩, by norm_num⟩

/-- A case of `C73_exp_partial` with halvings: the number 10, halved twice. -/
example : LeastScale (fun _ _ => 10 : Mat 1) 2 ∧ l1Norm (fun _ _ => 10 : Mat 1) / 2 ^ 2 ≤ 3.14952 := by
  unfold LeastScale
  rw [l1Norm_one]
  refine ⟨⟨by norm_num, fun t ht => ?_⟩, by norm_num⟩
  interval_cases t <;> norm_num

/-- A case of `C73_oob_defect`: the number 3.3. -/
example : matExp 9 (fun _ _ => 3.3 : Mat 1) = none := by
  refine C73_oob_defect _ 0 ⟨?_, fun t ht => absurd ht (Nat.not_lt_zero t)⟩ ?_ <;> rw [l1Norm_one] <;> norm_num [abs_le, abs_of_pos]

end

end Shamrock.Dust
