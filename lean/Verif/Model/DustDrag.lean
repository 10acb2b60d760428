import Mathlib.Algebra.BigOperators.Fin
import Mathlib.Data.Real.Basic
/-!
The dust drag of the Godunov (Ramses) model, in one cell. Arithmetic is over the reals; a loop over the dust species is a finite sum, and
the entry `id_a * ndust + i` of a field of the patch is the entry `i` of the cell `id_a`.
-/
namespace Shamrock.Dust

noncomputable section

/-- The conserved variables of a cell: gas density, momentum and total energy, densities and momenta of the dust species. -/
@[ext] structure Cell (nd : Nat) where
  rho : ℝ
  mom : Fin 3 → ℝ
  en : ℝ
  rhoD : Fin nd → ℝ
  momD : Fin nd → Fin 3 → ℝ

variable {nd : Nat}

/-- `involve_with_no_src`, /repo/src/shammodels/ramses/src/modules/DragIntegrator.cpp:113-119, 147-153: `d` holds the time derivatives. -/
def noDrag (dt : ℝ) (old d : Cell nd) : Cell nd where
  rho := old.rho + dt * d.rho
  mom c := old.mom c + dt * d.mom c
  en := old.en + dt * d.en
  rhoD i := old.rhoD i + dt * d.rhoD i
  momD i c := old.momD i c + dt * d.momD i c

/-- `1.0 / (1.0 + acc_alphas[i] * dt)`, DragIntegrator.cpp:248. -/
def invDtAlpha (al : Fin nd → ℝ) (dt : ℝ) (i : Fin nd) : ℝ := 1 / (1 + al i * dt)

/-- `tmp_mom_1` after the loop, DragIntegrator.cpp:244-255. -/
def irkMom (al : Fin nd → ℝ) (dt : ℝ) (new : Cell nd) (c : Fin 3) : ℝ :=
  new.mom c + ∑ i, dt * al i * invDtAlpha al dt i * new.momD i c

/-- `tmp_rho` after the loop, DragIntegrator.cpp:245-256: made of the densities before the step. -/
def irkRho (al : Fin nd → ℝ) (dt : ℝ) (old : Cell nd) : ℝ :=
  old.rho + ∑ i, dt * al i * invDtAlpha al dt i * old.rhoD i

/-- `tmp_vel`, DragIntegrator.cpp:258-259. -/
def irkVel (al : Fin nd → ℝ) (dt : ℝ) (old new : Cell nd) (c : Fin 3) : ℝ := 1 / irkRho al dt old * irkMom al dt new c

/-- The new momentum of a dust species, DragIntegrator.cpp:302-305. -/
def irkMomD (al : Fin nd → ℝ) (dt : ℝ) (old new : Cell nd) (i : Fin nd) (c : Fin 3) : ℝ :=
  invDtAlpha al dt i * (new.momD i c + dt * al i * old.rhoD i * irkVel al dt old new c)

/-- `work_drag`, DragIntegrator.cpp:262-274. -/
def irkWork (al : Fin nd → ℝ) (dt : ℝ) (old new : Cell nd) : ℝ :=
  0.5 * ∑ c, (old.rho * irkVel al dt old new c - new.mom c) *
    (1 / new.rho * new.mom c + 1 / new.rho * old.rho * irkVel al dt old new c)

/-- `dissipation`, DragIntegrator.cpp:275-292. -/
def irkDissipation (al : Fin nd → ℝ) (dt : ℝ) (old new : Cell nd) : ℝ :=
  ∑ i, 0.5 * (dt * al i) * invDtAlpha al dt i * ∑ c, (old.rhoD i * irkVel al dt old new c - new.momD i c) *
    (1 / new.rhoD i * invDtAlpha al dt i * (new.momD i c + dt * al i * old.rhoD i * irkVel al dt old new c) + 1 / new.rhoD i * new.momD i c)

/-- `friction_control`, DragIntegrator.cpp:199-200. -/
def frictionControl (enableFrictionalHeating : Bool) : ℝ := if enableFrictionalHeating = false then 1 else 0

/-- The kernel `add_drag [irk1]`, DragIntegrator.cpp:242-308: `old` is the state before the step, `new` the state after `noDrag`. -/
def irk1 (heating : Bool) (al : Fin nd → ℝ) (dt : ℝ) (old new : Cell nd) : Cell nd where
  rho := new.rho
  mom c := irkVel al dt old new c * old.rho
  en := new.en + (1 - frictionControl heating) * irkWork al dt old new - frictionControl heating * irkDissipation al dt old new
  rhoD := new.rhoD
  momD := irkMomD al dt old new

end

end Shamrock.Dust
