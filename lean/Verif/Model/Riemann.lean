import Verif.Model.Patch
import Mathlib.Data.Rat.Defs
import Mathlib.Algebra.Order.Field.Rat
/-! The Riemann solvers of the finite volume scheme. Floating point numbers are rationals (no overflow, no NaN: simplification), every operation of the code
is the exact one followed by an arbitrary rounding, the square root is an arbitrary function. -/
namespace Shamrock.Fv

/-- The arithmetic of the device: rounding after every operation, square root. -/
structure Ar where
  rnd : ℚ → ℚ
  sqrt : ℚ → ℚ

def Ar.add (A : Ar) (x y : ℚ) : ℚ := A.rnd (x + y)
def Ar.sub (A : Ar) (x y : ℚ) : ℚ := A.rnd (x - y)
def Ar.mul (A : Ar) (x y : ℚ) : ℚ := A.rnd (x * y)
def Ar.div (A : Ar) (x y : ℚ) : ℚ := A.rnd (x / y)

/-- `ConsState`, /repo/src/shammath/include/shammath/riemann.hpp:30-41 (also the fluxes). -/
structure CState where
  rho : ℚ
  rhoe : ℚ
  rv : V3 ℚ
deriving DecidableEq

/-- `PrimState`, riemann.hpp:43-50. -/
structure PState where
  rho : ℚ
  press : ℚ
  vel : V3 ℚ
deriving DecidableEq

/-- `operator+`, riemann.hpp:52-63. -/
def Ar.cadd (A : Ar) (a b : CState) : CState :=
  ⟨A.add a.rho b.rho, A.add a.rhoe b.rhoe, ⟨A.add a.rv.x b.rv.x, A.add a.rv.y b.rv.y, A.add a.rv.z b.rv.z⟩⟩

/-- `operator-`, riemann.hpp:65-76. -/
def Ar.csub (A : Ar) (a b : CState) : CState :=
  ⟨A.sub a.rho b.rho, A.sub a.rhoe b.rhoe, ⟨A.sub a.rv.x b.rv.x, A.sub a.rv.y b.rv.y, A.sub a.rv.z b.rv.z⟩⟩

/-- `operator*`, riemann.hpp:78-97 (both orders). -/
def Ar.cmul (A : Ar) (a : CState) (f : ℚ) : CState :=
  ⟨A.mul a.rho f, A.mul a.rhoe f, ⟨A.mul a.rv.x f, A.mul a.rv.y f, A.mul a.rv.z f⟩⟩

/-- `rhoekin`, riemann.hpp:107-113. -/
def Ar.rhoekin (A : Ar) (rho : ℚ) (v : V3 ℚ) : ℚ :=
  A.mul (A.mul (1 / 2) rho) (A.add (A.add (A.mul v.x v.x) (A.mul v.y v.y)) (A.mul v.z v.z))

/-- `prim_to_cons`, riemann.hpp:115-130. -/
def Ar.primToCons (A : Ar) (gamma : ℚ) (p : PState) : CState :=
  ⟨p.rho, A.add (A.div p.press (A.sub gamma 1)) (A.rhoekin p.rho p.vel), ⟨A.mul p.rho p.vel.x, A.mul p.rho p.vel.y, A.mul p.rho p.vel.z⟩⟩

/-- `cons_to_prim`, riemann.hpp:132-147. -/
def Ar.consToPrim (A : Ar) (gamma : ℚ) (c : CState) : PState :=
  let v : V3 ℚ := ⟨A.div c.rv.x c.rho, A.div c.rv.y c.rho, A.div c.rv.z c.rho⟩
  ⟨c.rho, A.mul (A.sub gamma 1) (A.sub c.rhoe (A.rhoekin c.rho v)), v⟩

/-- `hydro_flux_x`, riemann.hpp:149-166. -/
def Ar.hydroFlux (A : Ar) (gamma : ℚ) (c : CState) : CState :=
  let p := A.consToPrim gamma c
  ⟨c.rv.x, A.mul (A.add c.rhoe p.press) p.vel.x,
    ⟨A.add (A.mul (A.mul c.rho p.vel.x) p.vel.x) p.press, A.mul (A.mul c.rho p.vel.x) p.vel.y, A.mul (A.mul c.rho p.vel.x) p.vel.z⟩⟩

/-- `sound_speed`, riemann.hpp:168-172. -/
def Ar.soundSpeed (A : Ar) (gamma : ℚ) (p : PState) : ℚ := A.sqrt (A.div (A.mul gamma p.press) p.rho)

/-- `rusanov_flux_x`, riemann.hpp:194-213. -/
def Ar.rusanov (A : Ar) (gamma : ℚ) (cL cR : CState) : CState :=
  let pL := A.consToPrim gamma cL
  let pR := A.consToPrim gamma cR
  let S := max (A.add |pL.vel.x| (A.soundSpeed gamma pL)) (A.add |pR.vel.x| (A.soundSpeed gamma pR))
  A.cmul (A.csub (A.cadd (A.hydroFlux gamma cL) (A.hydroFlux gamma cR)) (A.cmul (A.csub cR cL) S)) (1 / 2)

/-- The outer wave speeds of `hll_flux_x`, riemann.hpp:296-308. -/
def Ar.hllSpeeds (A : Ar) (gamma : ℚ) (cL cR : CState) : ℚ × ℚ :=
  let pL := A.consToPrim gamma cL
  let pR := A.consToPrim gamma cR
  let csL := A.soundSpeed gamma pL
  let csR := A.soundSpeed gamma pR
  (min (A.sub pL.vel.x csL) (A.sub pR.vel.x csR), max (A.add pL.vel.x csL) (A.add pR.vel.x csR))

/-- `hll_flux_x`, riemann.hpp:293-333. -/
def Ar.hll (A : Ar) (gamma : ℚ) (cL cR : CState) : CState :=
  let SL := (A.hllSpeeds gamma cL cR).1
  let SR := (A.hllSpeeds gamma cL cR).2
  let fL := A.hydroFlux gamma cL
  let fR := A.hydroFlux gamma cR
  if 0 ≤ SL then fL
  else if SR ≤ 0 then fR
  else A.cmul (A.cadd (A.csub (A.cmul fL SR) (A.cmul fR SL)) (A.cmul (A.cmul (A.csub cR cL) SR) SL)) (A.div 1 (A.sub SR SL))

/-- `press_star` of `hllc_flux_x`, riemann.hpp:407-411. -/
def Ar.pressStar (A : Ar) (gamma : ℚ) (cL cR : CState) : ℚ :=
  let pL := A.consToPrim gamma cL
  let pR := A.consToPrim gamma cR
  let rhoBar := A.mul (1 / 2) (A.add pL.rho pR.rho)
  let csBar := A.mul (1 / 2) (A.add (A.soundSpeed gamma pL) (A.soundSpeed gamma pR))
  max 0 (A.sub (A.mul (1 / 2) (A.add pL.press pR.press)) (A.mul (A.mul (A.mul (1 / 2) (A.sub pR.vel.x pL.vel.x)) rhoBar) csBar))

/-- `qL`, `qR`, riemann.hpp:416-429. -/
def Ar.shockFactor (A : Ar) (gamma ps p : ℚ) : ℚ :=
  if ps ≤ p then 1
  else A.sqrt (A.add 1 (A.mul (A.div (A.mul (1 / 2) (A.add 1 gamma)) gamma) (A.sub (A.div ps p) 1)))

/-- `SL`, `S_star`, `SR` of `hllc_flux_x`, riemann.hpp:431-442. -/
def Ar.hllcSpeeds (A : Ar) (gamma : ℚ) (cL cR : CState) : ℚ × ℚ × ℚ :=
  let pL := A.consToPrim gamma cL
  let pR := A.consToPrim gamma cR
  let ps := A.pressStar gamma cL cR
  let SL := A.sub pL.vel.x (A.mul (A.soundSpeed gamma pL) (A.shockFactor gamma ps pL.press))
  let SR := A.add pR.vel.x (A.mul (A.soundSpeed gamma pR) (A.shockFactor gamma ps pR.press))
  let vL := A.mul pL.rho (A.sub SL pL.vel.x)
  let vR := A.mul pR.rho (A.sub SR pR.vel.x)
  (SL, A.div (A.sub (A.add (A.sub pR.press pL.press) (A.mul pL.vel.x vL)) (A.mul pR.vel.x vR)) (A.sub vL vR), SR)

/-- `cL_star`, `cR_star` and `FL_star`, `FR_star` (one side), riemann.hpp:449-465. -/
def Ar.starFlux (A : Ar) (c f : CState) (S Sstar pLR : ℚ) : CState :=
  let D : CState := ⟨0, Sstar, ⟨1, 0, 0⟩⟩
  let cs := A.cmul (A.cadd (A.csub (A.cmul c S) f) (A.cmul D pLR)) (A.div 1 (A.sub S Sstar))
  A.cadd f (A.cmul (A.csub cs c) S)

/-- `hllc_flux_x`, riemann.hpp:360-482. -/
def Ar.hllc (A : Ar) (gamma : ℚ) (cL cR : CState) : CState :=
  let pL := A.consToPrim gamma cL
  let pR := A.consToPrim gamma cR
  let SL := (A.hllcSpeeds gamma cL cR).1
  let Ss := (A.hllcSpeeds gamma cL cR).2.1
  let SR := (A.hllcSpeeds gamma cL cR).2.2
  let vL := A.mul pL.rho (A.sub SL pL.vel.x)
  let vR := A.mul pR.rho (A.sub SR pR.vel.x)
  let pLR := A.mul (1 / 2) (A.add (A.add (A.add pL.press pR.press) (A.mul vL (A.sub Ss pL.vel.x))) (A.mul vR (A.sub Ss pR.vel.x)))
  let FL := A.hydroFlux gamma cL
  let FR := A.hydroFlux gamma cR
  if 0 ≤ SL then FL
  else if 0 ≤ Ss then A.starFlux cL FL SL Ss pLR
  else if 0 ≤ SR then A.starFlux cR FR SR Ss pLR
  else FR

/-- `y_to_x`, riemann.hpp:213-222. -/
def yToX (c : CState) : CState := ⟨c.rho, c.rhoe, ⟨c.rv.y, -c.rv.x, c.rv.z⟩⟩
/-- `x_to_y`, riemann.hpp:224-233. -/
def xToY (c : CState) : CState := ⟨c.rho, c.rhoe, ⟨-c.rv.y, c.rv.x, c.rv.z⟩⟩
/-- `z_to_x`, riemann.hpp:235-244. -/
def zToX (c : CState) : CState := ⟨c.rho, c.rhoe, ⟨c.rv.z, c.rv.y, -c.rv.x⟩⟩
/-- `x_to_z`, riemann.hpp:246-255. -/
def xToZ (c : CState) : CState := ⟨c.rho, c.rhoe, ⟨-c.rv.z, c.rv.y, c.rv.x⟩⟩
/-- `invert_axis`, riemann.hpp:257-266. -/
def invertAxis (c : CState) : CState := ⟨c.rho, c.rhoe, ⟨-c.rv.x, -c.rv.y, -c.rv.z⟩⟩

/-- `*_flux_x`, `*_flux_mx`, `*_flux_y`, `*_flux_my`, `*_flux_z`, `*_flux_mz`, riemann.hpp:268-291 (Rusanov), 335-358 (HLL), 484-521 (HLLC): the six
directions (xp, xm, yp, ym, zp, zm), the same for the three solvers. -/
def along (f : CState → CState → CState) : Nat → CState → CState → CState
  | 0, a, b => f a b
  | 1, a, b => invertAxis (f (invertAxis a) (invertAxis b))
  | 2, a, b => xToY (f (yToX a) (yToX b))
  | 3, a, b => invertAxis (xToY (f (yToX (invertAxis a)) (yToX (invertAxis b))))
  | 4, a, b => xToZ (f (zToX a) (zToX b))
  | _, a, b => invertAxis (xToZ (f (zToX (invertAxis a)) (zToX (invertAxis b))))

/-- `RiemannSolverMode`. -/
inductive Solver
  | rusanov
  | hll
  | hllc

def Ar.solver (A : Ar) (gamma : ℚ) : Solver → CState → CState → CState
  | .rusanov => A.rusanov gamma
  | .hll => A.hll gamma
  | .hllc => A.hllc gamma

/-- `FluxCompute::flux`, /repo/src/shammodels/ramses/include/shammodels/ramses/modules/ComputeFluxUtilities.hpp:40-104. -/
def Ar.flux (A : Ar) (gamma : ℚ) (s : Solver) (dir : Nat) (pL pR : PState) : CState :=
  along (A.solver gamma s) dir (A.primToCons gamma pL) (A.primToCons gamma pR)

/-! ### Dust -/

/-- `DustConsState`, /repo/src/shammath/include/shammath/riemann_dust.hpp:28-39. -/
structure DState where
  rho : ℚ
  rv : V3 ℚ
deriving DecidableEq

/-- `d_cons_to_prim`, riemann_dust.hpp:110-116 (the velocity): `rhovel * (1 / rho)`. -/
def Ar.dVel (A : Ar) (c : DState) : V3 ℚ :=
  ⟨A.mul c.rv.x (A.div 1 c.rho), A.mul c.rv.y (A.div 1 c.rho), A.mul c.rv.z (A.div 1 c.rho)⟩

/-- `d_prim_to_cons`, riemann_dust.hpp:102-108. -/
def Ar.dCons (A : Ar) (p : DState) : DState := ⟨p.rho, ⟨A.mul p.rv.x p.rho, A.mul p.rv.y p.rho, A.mul p.rv.z p.rho⟩⟩

/-- `d_hydro_flux_x`, riemann_dust.hpp:118-126. -/
def Ar.dFlux (A : Ar) (c : DState) : DState :=
  let v := A.dVel c
  let m := A.mul c.rho v.x
  ⟨c.rv.x, ⟨A.mul v.x m, A.mul v.y m, A.mul v.z m⟩⟩

def Ar.dadd (A : Ar) (a b : DState) : DState := ⟨A.add a.rho b.rho, ⟨A.add a.rv.x b.rv.x, A.add a.rv.y b.rv.y, A.add a.rv.z b.rv.z⟩⟩
def Ar.dsub (A : Ar) (a b : DState) : DState := ⟨A.sub a.rho b.rho, ⟨A.sub a.rv.x b.rv.x, A.sub a.rv.y b.rv.y, A.sub a.rv.z b.rv.z⟩⟩
def Ar.dmul (A : Ar) (a : DState) (f : ℚ) : DState := ⟨A.mul a.rho f, ⟨A.mul a.rv.x f, A.mul a.rv.y f, A.mul a.rv.z f⟩⟩

/-- `d_hll_flux_x`, riemann_dust.hpp:177-191. -/
def Ar.dHll (A : Ar) (cL cR : DState) : DState :=
  A.dmul (A.dsub (A.dadd (A.dFlux cL) (A.dFlux cR)) (A.dmul (A.dsub cR cL) (max |(A.dVel cL).x| |(A.dVel cR).x|))) (1 / 2)

/-- `huang_bai_flux_x`, riemann_dust.hpp:193-214 (`d_flux` starts at zero). -/
def Ar.huangBai (A : Ar) (cL cR : DState) : DState :=
  let vL := (A.dVel cL).x
  let vR := (A.dVel cR).x
  if 0 < vL ∧ 0 < vR then A.dFlux cL
  else if vL < 0 ∧ vR < 0 then A.dFlux cR
  else if vL < 0 ∧ 0 < vR then ⟨0, ⟨0, 0, 0⟩⟩
  else if 0 < vL ∧ vR < 0 then A.dadd (A.dFlux cL) (A.dFlux cR)
  else ⟨0, ⟨0, 0, 0⟩⟩

/-- `d_y_to_x` etc., riemann_dust.hpp:128-175. -/
def dYToX (c : DState) : DState := ⟨c.rho, ⟨c.rv.y, -c.rv.x, c.rv.z⟩⟩
def dXToY (c : DState) : DState := ⟨c.rho, ⟨-c.rv.y, c.rv.x, c.rv.z⟩⟩
def dZToX (c : DState) : DState := ⟨c.rho, ⟨c.rv.z, c.rv.y, -c.rv.x⟩⟩
def dXToZ (c : DState) : DState := ⟨c.rho, ⟨-c.rv.z, c.rv.y, c.rv.x⟩⟩
def dInvert (c : DState) : DState := ⟨c.rho, ⟨-c.rv.x, -c.rv.y, -c.rv.z⟩⟩

/-- The six directions, riemann_dust.hpp:216-264. -/
def dAlong (f : DState → DState → DState) : Nat → DState → DState → DState
  | 0, a, b => f a b
  | 1, a, b => dInvert (f (dInvert a) (dInvert b))
  | 2, a, b => dXToY (f (dYToX a) (dYToX b))
  | 3, a, b => dInvert (dXToY (f (dYToX (dInvert a)) (dYToX (dInvert b))))
  | 4, a, b => dXToZ (f (dZToX a) (dZToX b))
  | _, a, b => dInvert (dXToZ (f (dZToX (dInvert a)) (dZToX (dInvert b))))

/-- `DustFluxCompute::dustflux`, ComputeFluxUtilities.hpp:115-165: `hb` selects Huang & Bai, else DHLL. -/
def Ar.dustFlux (A : Ar) (hb : Bool) (dir : Nat) (pL pR : DState) : DState :=
  dAlong (if hb then A.huangBai else A.dHll) dir (A.dCons pL) (A.dCons pR)

end Shamrock.Fv
