import Verif.Props.MatExp
import Verif.Props.DustDrag
/-!
C74: the exponential dust drag of the Godunov model.
-/
namespace Shamrock.Dust

noncomputable section

variable {nd : Nat} {al : Fin nd → ℝ} {dt : ℝ} {new : Cell nd}

theorem jac_00 : jacobian al new 0 0 = -∑ k, al k * (new.rhoD k / new.rho) := rfl
theorem jac_0s (l : Fin nd) : jacobian al new 0 l.succ = al l := rfl
theorem jac_s0 (k : Fin nd) : jacobian al new k.succ 0 = al k * (new.rhoD k / new.rho) := rfl
theorem jac_ss (k l : Fin nd) : jacobian al new k.succ l.succ = if k = l then -al k else 0 := rfl

/-- The densities of gas (index 0) and dust. -/
def Cell.rhoAll (u : Cell nd) (i : Fin (nd + 1)) : ℝ := Fin.cases (motive := fun _ => ℝ) u.rho (fun k => u.rhoD k) i

/-- The columns of the jacobian have the sum 0. -/
theorem jac_left : (jacobian al new).transpose.mulVec (fun _ => 1) = 0 := by
  funext j
  show ∑ i, jacobian al new i j * 1 = 0
  simp only [mul_one]
  rw [Fin.sum_univ_succ]
  refine Fin.cases ?_ (fun l => ?_) j
  · simp only [jac_00, jac_s0]
    exact neg_add_cancel _
  · simp only [jac_0s, jac_ss]
    rw [Finset.sum_ite_eq' Finset.univ l (fun k => -al k), if_pos (Finset.mem_univ l)]
    exact add_neg_cancel _

/-- The densities are in the kernel of the jacobian. -/
theorem jac_right (hr : new.rho ≠ 0) : (jacobian al new).mulVec new.rhoAll = 0 := by
  funext i
  show ∑ j, jacobian al new i j * new.rhoAll j = 0
  rw [Fin.sum_univ_succ]
  refine Fin.cases ?_ (fun k => ?_) i
  · simp only [jac_00, jac_0s]
    show -(∑ k, al k * (new.rhoD k / new.rho)) * new.rho + ∑ k, al k * new.rhoD k = 0
    rw [neg_mul, Finset.sum_mul, neg_add_eq_zero]
    apply Finset.sum_congr rfl
    intro k _
    field_simp
  · simp only [jac_s0, jac_ss]
    show al k * (new.rhoD k / new.rho) * new.rho + ∑ l, (if k = l then -al k else 0) * new.rhoD l = 0
    simp only [ite_mul, zero_mul]
    rw [Finset.sum_ite_eq Finset.univ k (fun l => -al k * new.rhoD l), if_pos (Finset.mem_univ k)]
    field_simp
    ring

theorem expoArg_eq : expoArg al dt new = (-expoMu al dt new) • (1 : Mat (nd + 1)) + dt • jacobian al new := by
  unfold expoArg
  rw [axpyBeta_eq, setIdentity_eq]

theorem arg_left : (expoArg al dt new).transpose.mulVec (fun _ => 1) = (-expoMu al dt new) • (fun _ => (1 : ℝ)) := by
  rw [expoArg_eq, Matrix.transpose_add, Matrix.transpose_smul, Matrix.transpose_smul, Matrix.transpose_one, Matrix.add_mulVec, Matrix.smul_mulVec,
    Matrix.smul_mulVec, jac_left, Matrix.one_mulVec, smul_zero, add_zero]

theorem arg_right (hr : new.rho ≠ 0) : (expoArg al dt new).mulVec new.rhoAll = (-expoMu al dt new) • new.rhoAll := by
  rw [expoArg_eq, Matrix.add_mulVec, Matrix.smul_mulVec, Matrix.smul_mulVec, jac_right hr, Matrix.one_mulVec, smul_zero, add_zero]

theorem neg_mu_nonneg (h : Good al dt new) : 0 ≤ -expoMu al dt new := by
  unfold expoMu
  have : 0 ≤ (∑ i, (1 + new.rhoD i / new.rho) * al i) * (dt / (nd + 1)) := by
    apply mul_nonneg
    · exact Finset.sum_nonneg fun i _ => mul_nonneg (add_nonneg zero_le_one (div_nonneg (h.rhoD i).le h.rho.le)) (h.al0 i)
    · exact div_nonneg h.dt0 (by positivity)
  rw [neg_div, mul_neg, neg_neg]
  exact this

theorem expoRow_eq (M : Mat (nd + 1)) (i : Fin (nd + 1)) (c : Fin 3) : expoRow M new i c = M.mulVec (new.momAll c) i := by
  show _ = ∑ j, M i j * new.momAll c j
  rw [Fin.sum_univ_succ]
  rfl

/-- The kernel finishes: the scaled norm of its matrix is not in the range of `C73_oob_defect`. -/
structure Readable (al : Fin nd → ℝ) (dt : ℝ) (new : Cell nd) (s : Nat) : Prop where
  least : LeastScale (expoArg al dt new) s
  low : l1Norm (expoArg al dt new) / 2 ^ s ≤ 3.14952
  s28 : s ≤ 28

/-- C74 (mass, momentum and velocities). The densities are those after the transport. There is one factor `g`, equal to 1 up to a relative
error of about `2e-15 * 2 ^ s'`, such that each component of the momentum of gas and dust together is multiplied by `g`, and gas and dust
that move together at velocity `v` move together at velocity `g v`: the drag makes no relative velocity.
Missing: the time steps for which the matrix exponential reads out of bounds (`C74_oob_defect`). -/
theorem C74_drag_partial (heating : Bool) (h : Good al dt new) (s : Nat) (hr : Readable al dt new s) :
    ∃ (u : Cell nd) (g : ℝ) (s' : Nat), expoDrag heating al dt new = some u ∧ s' ≤ s + 2 ∧
      (1 - 2e-15) ^ (2 ^ s') ≤ g ∧ g ≤ (1 + 1e-15) ^ (2 ^ s') ∧ u.rho = new.rho ∧ u.rhoD = new.rhoD ∧
      (∀ c, u.totalMom c = g * new.totalMom c) ∧
      ∀ v : Fin 3 → ℝ, new.Comoving v → u.Comoving (fun c => g * v c) := by
  obtain ⟨E, s', hE, hs', -, he⟩ := C73_eigen_partial _ s hr.least hr.low hr.s28
  have hrho : new.rhoAll ≠ 0 := fun h0 => h.rho.ne' (congrFun h0 0)
  obtain ⟨y, hlo, hhi, hyr, hyl⟩ := he _ _ (arg_right h.rho.ne') hrho (neg_mu_nonneg h)
  have hyl := hyl _ arg_left
  have hexp : Real.exp (-expoMu al dt new) * Real.exp (expoMu al dt new) = 1 := by rw [← Real.exp_add, neg_add_cancel, Real.exp_zero]
  have hpos := Real.exp_pos (expoMu al dt new)
  refine ⟨expoApply heating (expoMu al dt new) E new, y * Real.exp (expoMu al dt new), s', by unfold expoDrag; rw [hE]; rfl, hs', ?_, ?_, rfl, rfl, fun c => ?_, fun v hv => ?_⟩
  · have := mul_le_mul_of_nonneg_right hlo hpos.le
    rwa [mul_assoc, hexp, mul_one] at this
  · have := mul_le_mul_of_nonneg_right hhi hpos.le
    rwa [mul_assoc, hexp, mul_one] at this
  · have hs : (expoApply heating (expoMu al dt new) E new).totalMom c =
        ∑ i, (mulScalar (Real.exp (expoMu al dt new)) E).mulVec (new.momAll c) i := by
      rw [Fin.sum_univ_succ]
      simp only [← expoRow_eq]
      rfl
    have ht : new.totalMom c = ∑ j, new.momAll c j := by
      rw [Fin.sum_univ_succ]
      rfl
    rw [hs, ht, mulScalar_eq]
    show ∑ i, ∑ j, (Real.exp (expoMu al dt new) * E i j) * new.momAll c j = _
    rw [Finset.sum_comm, Finset.mul_sum]
    apply Finset.sum_congr rfl
    intro j _
    have hj : ∑ i, E i j * 1 = y * 1 := congrFun hyl j
    simp only [mul_one] at hj
    rw [← Finset.sum_mul, ← Finset.mul_sum, hj]
    ring
  · have hm : ∀ c, new.momAll c = v c • new.rhoAll := by
      intro c
      funext i
      refine Fin.cases ?_ (fun k => ?_) i
      · show new.mom c = v c * new.rho
        rw [hv.1 c, mul_comm]
      · show new.momD k c = v c * new.rhoD k
        rw [hv.2 k c, mul_comm]
    have hrow : ∀ i c, expoRow (mulScalar (Real.exp (expoMu al dt new)) E) new i c =
        new.rhoAll i * (y * Real.exp (expoMu al dt new) * v c) := by
      intro i c
      rw [expoRow_eq, hm c, mulScalar_eq, Matrix.mulVec_smul, Matrix.smul_mulVec, hyr]
      show v c * (Real.exp (expoMu al dt new) * (y * new.rhoAll i)) = _
      ring
    exact ⟨fun c => hrow 0 c, fun k c => hrow k.succ c⟩

/-- C74 (energy, option off). With the frictional heating switched off, the energy of gas and dust is conserved exactly. -/
theorem C74_energy_off (h : Good al dt new) (u : Cell nd) (hu : expoDrag false al dt new = some u) : u.total = new.total := by
  unfold expoDrag at hu
  obtain ⟨E, -, rfl⟩ := Option.map_eq_some_iff.1 hu
  have hd : expoDissipation (mulScalar (Real.exp (expoMu al dt new)) E) new =
      (expoApply false (expoMu al dt new) E new).kinDust - new.kinDust := by
    unfold expoDissipation Cell.kinDust
    show _ = (∑ k : Fin nd, (∑ c, expoRow (mulScalar (Real.exp (expoMu al dt new)) E) new k.succ c ^ 2) / (2 * new.rhoD k)) -
      ∑ k : Fin nd, (∑ c, new.momD k c ^ 2) / (2 * new.rhoD k)
    rw [← Finset.sum_sub_distrib]
    apply Finset.sum_congr rfl
    intro k _
    rw [← sub_div, ← Finset.sum_sub_distrib, Finset.mul_sum, Finset.sum_div]
    apply Finset.sum_congr rfl
    intro c _
    have h1 := (h.rhoD k).ne'
    field_simp
    ring
  show new.en + (1 - frictionControl false) * _ - frictionControl false * expoDissipation _ new +
    (expoApply false (expoMu al dt new) E new).kinDust = new.en + new.kinDust
  rw [hd]
  unfold frictionControl
  rw [if_pos rfl]
  ring

/-- Violation (the option is inverted, as for the implicit drag). With the frictional heating switched on, the thermal energy of the gas
never changes: the energy that the drag dissipates is lost. -/
theorem C74_energy_on_defect (h : Good al dt new) (u : Cell nd) (hu : expoDrag true al dt new = some u) : u.thermal = new.thermal := by
  unfold expoDrag at hu
  obtain ⟨E, -, rfl⟩ := Option.map_eq_some_iff.1 hu
  have hw : expoWork (mulScalar (Real.exp (expoMu al dt new)) E) new = (expoApply true (expoMu al dt new) E new).kinGas - new.kinGas := by
    unfold expoWork Cell.kinGas
    show _ = (∑ c, expoRow _ new 0 c ^ 2) / (2 * new.rho) - _
    rw [← sub_div, ← Finset.sum_sub_distrib, Finset.mul_sum, Finset.sum_div]
    apply Finset.sum_congr rfl
    intro c _
    have h1 := h.rho.ne'
    field_simp
    ring
  show new.en + (1 - frictionControl true) * expoWork _ new - frictionControl true * _ -
    (expoApply true (expoMu al dt new) E new).kinGas = new.en - new.kinGas
  rw [hw]
  unfold frictionControl
  rw [if_neg (by simp)]
  ring

/-- Gas and one dust species of density 1, at velocities 0 and 1. -/
def slipCell : Cell 1 := ⟨1, fun _ => 0, 1, fun _ => 1, fun _ _ => 1⟩

theorem slip_mu (dt : ℝ) : expoMu (fun _ : Fin 1 => 1) dt slipCell = -dt := by
  unfold expoMu slipCell
  norm_num
  ring

theorem slip_arg (dt : ℝ) (i j : Fin 2) : expoArg (fun _ : Fin 1 => 1) dt slipCell i j = if i = j then 0 else dt := by
  have h1 : (1 : Fin 2) = Fin.succ 0 := rfl
  unfold expoArg axpyBeta setIdentity
  rw [slip_mu]
  fin_cases i <;> fin_cases j
  · show - -dt * 1 + dt * (-∑ k : Fin 1, 1 * ((1 : ℝ) / 1)) = 0
    norm_num
  · show - -dt * 0 + dt * 1 = dt
    norm_num
  · show - -dt * 0 + dt * (1 * (1 / 1)) = dt
    norm_num
  · show - -dt * 1 + dt * (-1) = 0
    norm_num

theorem slip_norm (dt : ℝ) (h : 0 ≤ dt) : l1Norm (expoArg (fun _ : Fin 1 => 1) dt slipCell) = dt := by
  unfold l1Norm
  simp only [slip_arg, List.finRange_succ, Fin.sum_univ_succ]
  simp [abs_of_nonneg h, h]

/-- A case of the theorems: gas at rest, dust at velocity 1, a time step equal to the stopping time. -/
example : Good (fun _ : Fin 1 => (1 : ℝ)) 1 slipCell ∧ Readable (fun _ : Fin 1 => 1) 1 slipCell 0 := by
  refine ⟨⟨by norm_num, fun _ => by norm_num, by norm_num [slipCell], fun _ => by norm_num [slipCell]⟩, ⟨⟨?_, fun t ht => absurd ht (Nat.not_lt_zero t)⟩, ?_, by omega⟩⟩ <;>
    rw [slip_norm 1 (by norm_num)] <;> norm_num

/-- Violation: with a time step of 3.3 stopping times the kernel reads outside the array of coefficients. -/
theorem C74_oob_defect (heating : Bool) : Good (fun _ : Fin 1 => (1 : ℝ)) 3.3 slipCell ∧
    expoDrag heating (fun _ : Fin 1 => 1) 3.3 slipCell = none := by
  refine ⟨⟨by norm_num, fun _ => by norm_num, by norm_num [slipCell], fun _ => by norm_num [slipCell]⟩, ?_⟩
  unfold expoDrag
  rw [C73_oob_defect _ 0 ⟨?_, fun t ht => absurd ht (Nat.not_lt_zero t)⟩ ?_]
  · rfl
  · rw [slip_norm _ (by norm_num)]; norm_num
  · rw [slip_norm _ (by norm_num)]; norm_num

end

end Shamrock.Dust
