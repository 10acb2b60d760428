import Verif.Proof.FmmLaws
/-! Evaluation of a multipole at a point: the local expansion at the point itself. -/
namespace Shamrock.SelfGrav

open Shamrock Shamrock.Fmm

noncomputable section

theorem ix_plus (a b : V3 ℝ) (i : Fin 3) : Fmm.ix (a + b) i = Fmm.ix a i + Fmm.ix b i := by
  fin_cases i <;> rfl

theorem ix_divBy (a : V3 ℝ) (s : ℝ) (i : Fin 3) : Fmm.ix (V3.divBy a s) i = Fmm.ix a i / s := by
  fin_cases i <;> rfl

theorem ix_sycl (u : SymT1) (i : Fin 3) : Fmm.ix (tensor_to_sycl u) i = u.at i := by
  fin_cases i <;> rfl

theorem at_plus (u v : SymT1) (i : Fin 3) : (u + v).at i = u.at i + v.at i := by
  fin_cases i <;> rfl

theorem at_scale (u : SymT1) (s : ℝ) (i : Fin 3) : (u * s).at i = u.at i * s := by
  fin_cases i <;> rfl

theorem smul_one1 (u : SymT1) : u * (1 : ℝ) = u := by
  cases u
  show SymT1.mk _ _ _ = _
  simp only [mul_one]

theorem inner_zero1 (X : SymT2) : X * (⟨0, 0, 0⟩ : SymT1) = (⟨0, 0, 0⟩ : SymT1) := by
  show mul21 X ⟨0, 0, 0⟩ = _
  unfold mul21 SymT2.inner1
  simp only [mul_zero, zero_mul, add_zero]

theorem inner_zero2 (X : SymT3) : X * (⟨0, 0, 0, 0, 0, 0⟩ : SymT2) = (⟨0, 0, 0⟩ : SymT1) := by
  show mul32 X ⟨0, 0, 0, 0, 0, 0⟩ = _
  unfold mul32 SymT3.inner2
  simp only [mul_zero, zero_mul, add_zero]

theorem inner_zero3 (X : SymT4) : X * (⟨0, 0, 0, 0, 0, 0, 0, 0, 0, 0⟩ : SymT3) = (⟨0, 0, 0⟩ : SymT1) := by
  show mul43 X ⟨0, 0, 0, 0, 0, 0, 0, 0, 0, 0⟩ = _
  unfold mul43 SymT4.inner3
  simp only [mul_zero, zero_mul, add_zero]

theorem inner_zero4 (X : SymT5) : X * (⟨0, 0, 0, 0, 0, 0, 0, 0, 0, 0, 0, 0, 0, 0, 0⟩ : SymT4) = (⟨0, 0, 0⟩ : SymT1) := by
  show mul54 X ⟨0, 0, 0, 0, 0, 0, 0, 0, 0, 0, 0, 0, 0, 0, 0⟩ = _
  unfold mul54 SymT5.inner4
  simp only [mul_zero, zero_mul, add_zero]

theorem from_zero0 : Coll00.from_vec ⟨0, 0, 0⟩ = ⟨1⟩ := by
  simp only [Coll00.from_vec, mul_zero]

theorem at_center1 (D : Coll11) (Q : Coll00) (i : Fin 3) :
    Fmm.ix (contract_grav_moment_to_force1 (Coll00.from_vec ⟨0, 0, 0⟩) (get_dM_mat0 D Q)) i = Fmm.ix (contract_grav_moment_to_force1 Q D) i := by
  rw [from_zero0]
  unfold contract_grav_moment_to_force1
  simp only [smul_one1]
  unfold get_dM_mat0
  simp only

theorem from_zero1 : Coll01.from_vec ⟨0, 0, 0⟩ = ⟨1, ⟨0, 0, 0⟩⟩ := by
  simp only [Coll01.from_vec, mul_zero]

theorem at_center2 (D : Coll12) (Q : Coll01) (i : Fin 3) :
    Fmm.ix (contract_grav_moment_to_force2 (Coll01.from_vec ⟨0, 0, 0⟩) (get_dM_mat1 D Q)) i = Fmm.ix (contract_grav_moment_to_force2 Q D) i := by
  rw [from_zero1]
  unfold contract_grav_moment_to_force2
  simp only [smul_one1, inner_zero1]
  unfold get_dM_mat1
  simp only
  generalize D.t1 * Q.t0 = u0
  generalize D.t2 * Q.t1 = u1
  simp only [ix_plus, ix_divBy, ix_sycl, at_plus, at_scale, at_zero1]
  ring

theorem from_zero2 : Coll02.from_vec ⟨0, 0, 0⟩ = ⟨1, ⟨0, 0, 0⟩, ⟨0, 0, 0, 0, 0, 0⟩⟩ := by
  simp only [Coll02.from_vec, mul_zero]

theorem at_center3 (D : Coll13) (Q : Coll02) (i : Fin 3) :
    Fmm.ix (contract_grav_moment_to_force3 (Coll02.from_vec ⟨0, 0, 0⟩) (get_dM_mat2 D Q)) i = Fmm.ix (contract_grav_moment_to_force3 Q D) i := by
  rw [from_zero2]
  unfold contract_grav_moment_to_force3
  simp only [smul_one1, inner_zero1, inner_zero2]
  unfold get_dM_mat2
  simp only
  generalize D.t1 * Q.t0 = u0
  generalize D.t2 * Q.t1 = u1
  generalize D.t3 * Q.t2 = u2
  simp only [ix_plus, ix_divBy, ix_sycl, at_plus, at_scale, at_zero1]
  ring

theorem from_zero3 : Coll03.from_vec ⟨0, 0, 0⟩ = ⟨1, ⟨0, 0, 0⟩, ⟨0, 0, 0, 0, 0, 0⟩, ⟨0, 0, 0, 0, 0, 0, 0, 0, 0, 0⟩⟩ := by
  simp only [Coll03.from_vec, mul_zero]

theorem at_center4 (D : Coll14) (Q : Coll03) (i : Fin 3) :
    Fmm.ix (contract_grav_moment_to_force4 (Coll03.from_vec ⟨0, 0, 0⟩) (get_dM_mat3 D Q)) i = Fmm.ix (contract_grav_moment_to_force4 Q D) i := by
  rw [from_zero3]
  unfold contract_grav_moment_to_force4
  simp only [smul_one1, inner_zero1, inner_zero2, inner_zero3]
  unfold get_dM_mat3
  simp only
  generalize D.t1 * Q.t0 = u0
  generalize D.t2 * Q.t1 = u1
  generalize D.t3 * Q.t2 = u2
  generalize D.t4 * Q.t3 = u3
  simp only [ix_plus, ix_divBy, ix_sycl, at_plus, at_scale, at_zero1]
  ring

theorem from_zero4 : Coll04.from_vec ⟨0, 0, 0⟩ = ⟨1, ⟨0, 0, 0⟩, ⟨0, 0, 0, 0, 0, 0⟩, ⟨0, 0, 0, 0, 0, 0, 0, 0, 0, 0⟩, ⟨0, 0, 0, 0, 0, 0, 0, 0, 0, 0, 0, 0, 0, 0, 0⟩⟩ := by
  simp only [Coll04.from_vec, mul_zero]

theorem at_center5 (D : Coll15) (Q : Coll04) (i : Fin 3) :
    Fmm.ix (contract_grav_moment_to_force5 (Coll04.from_vec ⟨0, 0, 0⟩) (get_dM_mat4 D Q)) i = Fmm.ix (contract_grav_moment_to_force5 Q D) i := by
  rw [from_zero4]
  unfold contract_grav_moment_to_force5
  simp only [smul_one1, inner_zero1, inner_zero2, inner_zero3, inner_zero4]
  unfold get_dM_mat4
  simp only
  generalize D.t1 * Q.t0 = u0
  generalize D.t2 * Q.t1 = u1
  generalize D.t3 * Q.t2 = u2
  generalize D.t4 * Q.t3 = u3
  generalize D.t5 * Q.t4 = u4
  simp only [ix_plus, ix_divBy, ix_sycl, at_plus, at_scale, at_zero1]
  ring

/-- Multipole to particle: what `SGMMPlummer` evaluates is the expansion of the field at the particle. -/
theorem m2p_center : ∀ (k : Fin 5) (D : (fmmOps k).Grav) (Q : (fmmOps k).Mass) (i : Fin 3),
    Fmm.ix ((fmmOps k).contract ((fmmOps k).fromVec ⟨0, 0, 0⟩) ((fmmOps k).getG D Q)) i = Fmm.ix ((fmmOps k).contract Q D) i
  | 0 => at_center1
  | 1 => at_center2
  | 2 => at_center3
  | 3 => at_center4
  | 4 => at_center5

end

end Shamrock.SelfGrav
