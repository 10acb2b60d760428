import Verif.Model.DustDrag
import Mathlib.Tactic.FieldSimp
import Mathlib.Tactic.Ring
import Mathlib.Tactic.Linarith
import Mathlib.Tactic.Positivity
import Mathlib.Tactic.NormNum
import Mathlib.Tactic.LinearCombination
import Mathlib.Algebra.BigOperators.Field
/-!
C72: the implicit dust drag of the Godunov model.
-/
namespace Shamrock.Dust

noncomputable section

variable {nd : Nat} {al : Fin nd → ℝ} {dt : ℝ} {old new : Cell nd}

/-! ### Specification -/

/-- Component `c` of the momentum of gas and dust. -/
def Cell.totalMom (u : Cell nd) (c : Fin 3) : ℝ := u.mom c + ∑ i, u.momD i c

/-- The kinetic energy of the gas. -/
def Cell.kinGas (u : Cell nd) : ℝ := (∑ c, u.mom c ^ 2) / (2 * u.rho)

/-- The kinetic energy of the dust. -/
def Cell.kinDust (u : Cell nd) : ℝ := ∑ i, (∑ c, u.momD i c ^ 2) / (2 * u.rhoD i)

/-- The thermal energy of the gas (`en` is thermal plus kinetic). -/
def Cell.thermal (u : Cell nd) : ℝ := u.en - u.kinGas

/-- The energy of gas and dust. -/
def Cell.total (u : Cell nd) : ℝ := u.en + u.kinDust

/-- Gas and dust move at velocity `v`. -/
def Cell.Comoving (u : Cell nd) (v : Fin 3 → ℝ) : Prop := (∀ c, u.mom c = u.rho * v c) ∧ ∀ i c, u.momD i c = u.rhoD i * v c

/-- What a cell must satisfy: positive densities, drag rates and time step not negative. -/
structure Good (al : Fin nd → ℝ) (dt : ℝ) (u : Cell nd) : Prop where
  dt0 : 0 ≤ dt
  al0 : ∀ i, 0 ≤ al i
  rho : 0 < u.rho
  rhoD : ∀ i, 0 < u.rhoD i

theorem Good.den {u : Cell nd} (h : Good al dt u) (i : Fin nd) : 0 < 1 + al i * dt := by
  have := mul_nonneg (h.al0 i) h.dt0
  linarith

theorem Good.inv {u : Cell nd} (h : Good al dt u) (i : Fin nd) : invDtAlpha al dt i * (1 + al i * dt) = 1 := by
  unfold invDtAlpha
  exact div_mul_cancel₀ 1 (h.den i).ne'

theorem Good.inv_nonneg {u : Cell nd} (h : Good al dt u) (i : Fin nd) : 0 ≤ invDtAlpha al dt i :=
  div_nonneg zero_le_one (h.den i).le

theorem Good.irkRho_pos (h : Good al dt old) : 0 < irkRho al dt old := by
  unfold irkRho
  refine add_pos_of_pos_of_nonneg h.rho (Finset.sum_nonneg fun i _ => ?_)
  exact mul_nonneg (mul_nonneg (mul_nonneg h.dt0 (h.al0 i)) (h.inv_nonneg i)) (h.rhoD i).le

theorem irkVel_mul (h : Good al dt old) (c : Fin 3) : irkVel al dt old new c * irkRho al dt old = irkMom al dt new c := by
  unfold irkVel
  have := h.irkRho_pos.ne'
  field_simp

/-! ### The theorems -/

/-- C72 (mass). The drag does not change the densities. -/
theorem C72_mass (heating : Bool) : (irk1 heating al dt old new).rho = new.rho ∧ (irk1 heating al dt old new).rhoD = new.rhoD := ⟨rfl, rfl⟩

/-- C72 (momentum). Each component of the momentum of gas and dust together is conserved exactly, whatever the drag rates, the time step
and the densities before and after the transport step. -/
theorem C72_momentum (heating : Bool) (h : Good al dt old) (c : Fin 3) : (irk1 heating al dt old new).totalMom c = new.totalMom c := by
  have hv := irkVel_mul (new := new) h c
  unfold irkRho irkMom at hv
  show irkVel al dt old new c * old.rho + ∑ i, irkMomD al dt old new i c = new.mom c + ∑ i, new.momD i c
  have hs : ∑ i, irkMomD al dt old new i c = ∑ i, new.momD i c - ∑ i, dt * al i * invDtAlpha al dt i * new.momD i c +
      irkVel al dt old new c * ∑ i, dt * al i * invDtAlpha al dt i * old.rhoD i := by
    rw [Finset.mul_sum, ← Finset.sum_sub_distrib, ← Finset.sum_add_distrib]
    apply Finset.sum_congr rfl
    intro i _
    unfold irkMomD
    linear_combination new.momD i c * h.inv i
  rw [hs]
  linear_combination hv

/-- C72 (whole step). After the transport with the time derivatives `d` and the drag, the density of the gas, those of the dust and each
component of the total momentum have changed by `dt` times the derivative given by the transport, the drag adding nothing. -/
theorem C72_step (heating : Bool) (d : Cell nd) (h : Good al dt old) (c : Fin 3) (i : Fin nd) :
    let u := irk1 heating al dt old (noDrag dt old d)
    u.rho = old.rho + dt * d.rho ∧ u.rhoD i = old.rhoD i + dt * d.rhoD i ∧ u.totalMom c = old.totalMom c + dt * d.totalMom c := by
  refine ⟨rfl, rfl, ?_⟩
  rw [C72_momentum heating h c]
  show (old.mom c + dt * d.mom c) + ∑ k, (old.momD k c + dt * d.momD k c) = (old.mom c + ∑ k, old.momD k c) + dt * (d.mom c + ∑ k, d.momD k c)
  rw [Finset.sum_add_distrib, ← Finset.mul_sum]
  ring

/-- Helper: `dissipation` is the change of the kinetic energy of the dust. -/
theorem irk_dissipation (h : Good al dt new) (heating : Bool) : irkDissipation al dt old new = (irk1 heating al dt old new).kinDust - new.kinDust := by
  show irkDissipation al dt old new = (∑ i, (∑ c, irkMomD al dt old new i c ^ 2) / (2 * new.rhoD i)) - ∑ i, (∑ c, new.momD i c ^ 2) / (2 * new.rhoD i)
  unfold irkDissipation
  rw [← Finset.sum_sub_distrib]
  apply Finset.sum_congr rfl
  intro i _
  rw [← sub_div, ← Finset.sum_sub_distrib, Finset.mul_sum, Finset.sum_div]
  apply Finset.sum_congr rfl
  intro c _
  unfold irkMomD invDtAlpha
  have h1 := (h.rhoD i).ne'
  have h2 : 1 + dt * al i ≠ 0 := by rw [mul_comm dt]; exact (h.den i).ne'
  rw [mul_comm (al i) dt]
  field_simp
  ring

/-- Helper: `work_drag` is the change of the kinetic energy of the gas. -/
theorem irk_work (h : Good al dt new) (heating : Bool) : irkWork al dt old new = (irk1 heating al dt old new).kinGas - new.kinGas := by
  show irkWork al dt old new = (∑ c, (irkVel al dt old new c * old.rho) ^ 2) / (2 * new.rho) - (∑ c, new.mom c ^ 2) / (2 * new.rho)
  unfold irkWork
  rw [← sub_div, ← Finset.sum_sub_distrib, Finset.mul_sum, Finset.sum_div]
  apply Finset.sum_congr rfl
  intro c _
  have h1 := h.rho.ne'
  field_simp
  ring

/-- C72 (energy, option off). With the frictional heating switched off, the energy of gas and dust is conserved exactly: what the dust
loses or gains is given to or taken from the gas. -/
theorem C72_energy_off (h : Good al dt new) : (irk1 false al dt old new).total = new.total := by
  show new.en + (1 - frictionControl false) * irkWork al dt old new - frictionControl false * irkDissipation al dt old new +
    (irk1 false al dt old new).kinDust = new.en + new.kinDust
  rw [irk_dissipation h false]
  unfold frictionControl
  rw [if_pos rfl]
  ring

/-- Violation (the option is inverted). With the frictional heating switched on, the thermal energy of the gas never changes: the energy
that the drag dissipates is lost. -/
theorem C72_energy_on_defect (h : Good al dt new) : (irk1 true al dt old new).thermal = new.thermal := by
  show new.en + (1 - frictionControl true) * irkWork al dt old new - frictionControl true * irkDissipation al dt old new -
    (irk1 true al dt old new).kinGas = new.en - new.kinGas
  rw [irk_work h true]
  unfold frictionControl
  rw [if_neg (by simp)]
  ring

/-- C72 (implicit scheme; densities that the transport has not changed). The new momenta solve the backward Euler equations of the drag:
`m_i' = m_i + dt α_i (ρ_i v' - m_i')`, `v'` the new velocity of the gas. Missing: densities changed by the transport, for which it is false
(`C72_comoving_defect`). -/
theorem C72_implicit_partial (heating : Bool) (h : Good al dt new) (h1 : old.rho = new.rho) (h2 : old.rhoD = new.rhoD) (i : Fin nd) (c : Fin 3) :
    let u := irk1 heating al dt old new
    u.momD i c = new.momD i c + dt * al i * (new.rhoD i * (u.mom c / u.rho) - u.momD i c) ∧
      u.mom c = new.mom c - ∑ k, dt * al k * (new.rhoD k * (u.mom c / u.rho) - u.momD k c) := by
  have hg : Good al dt old := ⟨h.dt0, h.al0, h1 ▸ h.rho, fun k => by rw [h2]; exact h.rhoD k⟩
  have hv : (irk1 heating al dt old new).mom c / (irk1 heating al dt old new).rho = irkVel al dt old new c := by
    show irkVel al dt old new c * old.rho / new.rho = _
    rw [h1]
    exact mul_div_cancel_right₀ _ h.rho.ne'
  have hd : ∀ k, (irk1 heating al dt old new).momD k c =
      new.momD k c + dt * al k * (new.rhoD k * irkVel al dt old new c - (irk1 heating al dt old new).momD k c) := by
    intro k
    show irkMomD al dt old new k c = new.momD k c + dt * al k * (new.rhoD k * irkVel al dt old new c - irkMomD al dt old new k c)
    unfold irkMomD
    rw [h2]
    linear_combination (new.momD k c + dt * al k * new.rhoD k * irkVel al dt old new c) * h.inv k
  show (irk1 heating al dt old new).momD i c = _ ∧ _
  refine ⟨?_, ?_⟩
  · rw [hv]; exact hd i
  · rw [hv]
    have hm := C72_momentum (new := new) heating hg c
    unfold Cell.totalMom at hm
    have hs : ∑ k, (irk1 heating al dt old new).momD k c = ∑ k, new.momD k c +
        ∑ k, dt * al k * (new.rhoD k * irkVel al dt old new c - (irk1 heating al dt old new).momD k c) := by
      rw [← Finset.sum_add_distrib]
      exact Finset.sum_congr rfl fun k _ => hd k
    linear_combination hm - hs

/-- C72 (comoving; densities that the transport has changed all by the same factor). Gas and dust that move together after the transport
are left unchanged by the drag. Missing: other densities, for which it is false (`C72_comoving_defect`). -/
theorem C72_comoving_partial (heating : Bool) (h : Good al dt old) (lam : ℝ) (h1 : new.rho = lam * old.rho)
    (h2 : ∀ i, new.rhoD i = lam * old.rhoD i) (v : Fin 3 → ℝ) (hv : new.Comoving v) : (irk1 heating al dt old new).Comoving v := by
  have hvel : ∀ c, irkVel al dt old new c = lam * v c := by
    intro c
    have hm : irkMom al dt new c = lam * v c * irkRho al dt old := by
      unfold irkMom irkRho
      rw [hv.1 c, h1, mul_add, Finset.mul_sum]
      congr 1
      · ring
      · apply Finset.sum_congr rfl
        intro i _
        rw [hv.2 i c, h2 i]
        ring
    unfold irkVel
    rw [hm]
    have := h.irkRho_pos.ne'
    field_simp
  constructor
  · intro c
    show irkVel al dt old new c * old.rho = new.rho * v c
    rw [hvel c, h1]; ring
  · intro i c
    show irkMomD al dt old new i c = new.rhoD i * v c
    unfold irkMomD
    rw [hvel c, hv.2 i c, h2 i]
    linear_combination lam * old.rhoD i * v c * h.inv i

/-- A cell with gas of density 1, dust of density 1 in one species, at rest. -/
def restCell : Cell 1 := ⟨1, fun _ => 0, 1, fun _ => 1, fun _ _ => 0⟩

/-- The same after the transport has doubled the density of the gas; gas and dust move at velocity 1 along every axis. -/
def movingCell : Cell 1 := ⟨2, fun _ => 2, 10, fun _ => 1, fun _ _ => 1⟩

/-- The hypotheses are met by these cells. -/
example : Good (fun _ : Fin 1 => 1) 1 restCell ∧ Good (fun _ : Fin 1 => 1) 1 movingCell ∧ movingCell.Comoving (fun _ => 1) := by
  refine ⟨⟨by norm_num, fun _ => by norm_num, ?_, fun _ => ?_⟩, ⟨by norm_num, fun _ => by norm_num, ?_, fun _ => ?_⟩, fun _ => ?_, fun _ _ => ?_⟩ <;>
    simp [restCell, movingCell]

/-- Violation: the drag mixes the densities before the transport with the momenta after it, and gives gas and dust that move together a
relative velocity when the transport has changed their densities by different factors. Here: velocity 5/6 for the gas, 4/3 for the dust,
instead of 1. -/
theorem C72_comoving_defect (heating : Bool) :
    movingCell.Comoving (fun _ => 1) ∧ (irk1 heating (fun _ : Fin 1 => 1) 1 restCell movingCell).mom 0 = 2 * (5 / 6) ∧
      (irk1 heating (fun _ : Fin 1 => 1) 1 restCell movingCell).momD 0 0 = 1 * (4 / 3) := by
  refine ⟨⟨fun _ => ?_, fun _ _ => ?_⟩, ?_, ?_⟩
  · simp [movingCell]
  · simp [movingCell]
  · show irkVel _ _ restCell movingCell 0 * restCell.rho = _
    unfold irkVel irkRho irkMom invDtAlpha restCell movingCell
    norm_num
  · show irkMomD _ _ restCell movingCell 0 0 = _
    unfold irkMomD irkVel irkRho irkMom invDtAlpha restCell movingCell
    norm_num

/-- A case of `C72_energy_on_defect` with dissipation: gas at rest, dust at velocity 1; with the heating on, energy is lost. -/
example : let u : Cell 1 := ⟨1, fun _ => 0, 1, fun _ => 1, fun _ _ => 1⟩
    (irk1 true (fun _ : Fin 1 => 1) 1 u u).total < u.total ∧ (irk1 false (fun _ : Fin 1 => 1) 1 u u).total = u.total := by
  intro u
  have hg : Good (fun _ : Fin 1 => (1 : ℝ)) 1 u := ⟨by norm_num, fun _ => by norm_num, by norm_num [u], fun _ => by norm_num [u]⟩
  refine ⟨?_, C72_energy_off hg⟩
  unfold Cell.total Cell.kinDust
  show u.en + (1 - frictionControl true) * irkWork _ 1 u u - frictionControl true * irkDissipation _ 1 u u + _ < _
  unfold frictionControl irkWork irk1 irkMomD irkVel irkRho irkMom invDtAlpha
  norm_num [u]

end

end Shamrock.Dust
