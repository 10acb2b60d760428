import Verif.Model.SphGhost
import Verif.Model.NeighCache
import Mathlib.Algebra.Field.Basic
import Mathlib.Algebra.Order.Group.Abs
/-! SPH forces: /repo/src/shammodels/sph/include/shammodels/sph/math/forces.hpp, q_ab.hpp, density.hpp, mhd.hpp, the kernels of
/repo/src/shammodels/sph/src/modules/NodeUpdateDerivsVaryingAlphaAV.cpp and UpdateDerivs.cpp, and the exchange of the fields of the ghosts,
`communicate_merge_ghosts_fields`, /repo/src/shammodels/sph/src/Solver.cpp.

Arithmetic is exact (an ordered field); the square root and the gradient of the kernel are arbitrary functions. A division by zero has no value (`none`). -/
namespace Shamrock.Sph

section
variable {K : Type} [Field K] [LinearOrder K]

/-- Operations of `sycl::vec`. -/
def vadd (a b : V3 K) : V3 K := ⟨a.x + b.x, a.y + b.y, a.z + b.z⟩
def vsub (a b : V3 K) : V3 K := ⟨a.x - b.x, a.y - b.y, a.z - b.z⟩
def smul (s : K) (a : V3 K) : V3 K := ⟨s * a.x, s * a.y, s * a.z⟩
def dot (a b : V3 K) : K := a.x * b.x + a.y * b.y + a.z * b.z
def cross (a b : V3 K) : V3 K := ⟨a.y * b.z - a.z * b.y, a.z * b.x - a.x * b.z, a.x * b.y - a.y * b.x⟩

/-- `inv_sat_positive`, /repo/src/shambackends/include/shambackends/math.hpp:841-843. -/
def invSatPositive (v : K) : K := if 1 / 10 ^ 9 ≤ v then 1 / v else 0

/-- `inv_sat_zero`, math.hpp:870-873. -/
def invSatZero (v : K) : K := if v ≠ 0 then 1 / v else 0

/-- `rho_h`, density.hpp:27-29 (for `h` not zero). -/
def rhoH (m h hfact : K) : K := m * (hfact / h) * (hfact / h) * (hfact / h)

/-- `vsig_u`, forces.hpp:34-41. -/
def vsigU (sqrt : K → K) (pa pb ra rb : K) : K := sqrt (|pa - pb| / ((ra + rb) * (1 / 2)))

/-- `q_av`, q_ab.hpp:36-39. -/
def qAv (rho vsig vr : K) : K := max (-(1 / 2) * rho * vsig * vr) 0

/-- `q_av_disc`, q_ab.hpp:41-61. -/
def qAvDisc (rho h rab alpha cs vsig vr : K) : K :=
  let prefact := -(1 / 2) * rho * |invSatPositive rab| * h
  let vd := if vr < 0 then vsig else alpha * cs
  prefact * vd * vr

/-- `sph_pressure_symetric`, forces.hpp:59-80. -/
def pressureSym (m raSq rbSq pa pb oa ob : K) (na nb : V3 K) : V3 K :=
  smul (-m) (vadd (smul (pa * invSatZero (raSq * oa)) na) (smul (pb * invSatZero (rbSq * ob)) nb))

/-- `duint_dt_pressure`, forces.hpp:137-145. -/
def duPressure (m pa inv : K) (vab grad : V3 K) : K := pa * inv * m * dot vab grad

/-- `lambda_shock_conductivity`, forces.hpp:160-170. -/
def shockConductivity (m alphaU vsigU uab fa fb : K) : K := m * alphaU * vsigU * uab * (1 / 2) * (fa + fb)

/-- `add_to_derivs_sph_artif_visco_cond`, forces.hpp:172-227: what it adds to `dv_dt` and `du_dt`. -/
def addToDerivs (m raSq oaRaInv raInv rb oa ob fa fb ua ub pa pb alphaU : K) (vab unit : V3 K) (vsigu qa qb : K) : V3 K × K :=
  let avPa := pa + qa
  let avPb := pb + qb
  (pressureSym m raSq (rb * rb) avPa avPb oa ob (smul fa unit) (smul fb unit),
   duPressure m avPa (oaRaInv * raInv) vab (smul fa unit) + shockConductivity m alphaU vsigu (ua - ub) (fa * oaRaInv) (fb / (rb * ob)))

/-- The configurations of the artificial viscosity: a field `alpha_AV` (NodeUpdateDerivsVaryingAlphaAV.cpp), a constant (UpdateDerivs.cpp:89-287), the disc
formula with a constant (UpdateDerivs.cpp:579-781). -/
inductive Visc (K : Type) where
  | field
  | const (alpha : K)
  | disc (alpha : K)

/-- Constants of the kernel: mass of a particle, conductivity, quadratic viscosity, `hfactd`, `Rkern`, square root, `Kernel::dW_3d`. -/
structure Cfg (K : Type) where
  pmass : K
  alphaU : K
  betaAV : K
  hfact : K
  rkern : K
  sqrt : K → K
  dW : K → K → K
  visc : Visc K

/-- What a work item reads of a particle. -/
structure Part (K : Type) where
  x : V3 K
  h : K
  v : V3 K
  u : K
  omega : K
  p : K
  cs : K
  alpha : K

def Visc.alphaOf : Visc K → Part K → K
  | .field, a => a.alpha
  | .const al, _ => al
  | .disc al, _ => al

/-- `qa_ab` and `qb_ab`: NodeUpdateDerivsVaryingAlphaAV.cpp:103-109, UpdateDerivs.cpp:236-244, 725-734. -/
def Cfg.q (C : Cfg K) (a : Part K) (rho rab vr : K) : K :=
  let vsig := C.visc.alphaOf a * a.cs + C.betaAV * |vr|
  match C.visc with
  | .disc al => qAvDisc rho a.h rab al a.cs vsig vr
  | _ => qAv rho vsig vr

/-- The cut-off, NodeUpdateDerivsVaryingAlphaAV.cpp:75-81 (UpdateDerivs.cpp:205-212, 694-701). -/
def Cfg.far (C : Cfg K) (a b : Part K) : Bool :=
  let dr := vsub a.x b.x
  decide (a.h * a.h * (C.rkern * C.rkern) < dot dr dr) && decide (b.h * b.h * (C.rkern * C.rkern) < dot dr dr)

/-- What the lambda of the loop over the neighbours adds, beyond the cut-off test, NodeUpdateDerivsVaryingAlphaAV.cpp:83-134
(UpdateDerivs.cpp:214-268, 703-757), with the values of `id_a` of lines 53-67. -/
def Cfg.near (C : Cfg K) (a b : Part K) : V3 K × K :=
  let rhoA := rhoH C.pmass a.h C.hfact
  let rhoB := rhoH C.pmass b.h C.hfact
  let dr := vsub a.x b.x
  let rab := C.sqrt (dot dr dr)
  let fa := C.dW rab a.h
  let fb := C.dW rab b.h
  let vab := vsub a.v b.v
  let unit := smul (invSatPositive rab) dr
  let vr := dot vab unit
  addToDerivs C.pmass (rhoA * rhoA) (1 / (a.omega * rhoA)) (1 / rhoA) rhoB a.omega b.omega fa fb a.u b.u a.p b.p C.alphaU vab unit
    (vsigU C.sqrt a.p b.p rhoA rhoB) (C.q a rhoA rab vr) (C.q b rhoB rab vr)

/-- The denominators of a particle. -/
def Cfg.bad (C : Cfg K) (a : Part K) : Bool := decide (a.h = 0) || decide (a.omega * rhoH C.pmass a.h C.hfact = 0)

/-- One turn of the loop over the neighbours. -/
def Cfg.turn (C : Cfg K) (a b : Part K) (acc : V3 K × K) : Option (V3 K × K) :=
  if C.far a b then some acc
  else if C.bad b || decide (rhoH C.pmass a.h C.hfact + rhoH C.pmass b.h C.hfact = 0) then none
  else some (vadd acc.1 (C.near a b).1, acc.2 + (C.near a b).2)

/-- The buffers read by the kernel (with ghosts). -/
structure Bufs (K : Type) where
  xyz : List (V3 K)
  hpart : List K
  vxyz : List (V3 K)
  uint : List K
  omega : List K
  pressure : List K
  cs : List K
  alpha : List K

/-- The reads for one particle (`alpha_AV` is read only in the field configuration). -/
def Bufs.get (B : Bufs K) (visc : Visc K) (i : Nat) : Option (Part K) := do
  let x ← B.xyz[i]?
  let h ← B.hpart[i]?
  let v ← B.vxyz[i]?
  let u ← B.uint[i]?
  let om ← B.omega[i]?
  let p ← B.pressure[i]?
  let cs ← B.cs[i]?
  match visc with
  | .field => (B.alpha[i]?).map fun al => ⟨x, h, v, u, om, p, cs, al⟩
  | .const al => some ⟨x, h, v, u, om, p, cs, al⟩
  | .disc al => some ⟨x, h, v, u, om, p, cs, al⟩

/-- Work item `id_a`, NodeUpdateDerivsVaryingAlphaAV.cpp:37-139: the values it writes to `axyz[id_a]`, `duint[id_a]`. (The position and smoothing length of a neighbour
beyond the cut-off are the only values read of it in the code; the others are read as well here.) -/
def Cfg.item (C : Cfg K) (B : Bufs K) (c : ObjCache) (a : Nat) : Option (V3 K × K) := do
  let pa ← B.get C.visc a
  if C.bad pa then none
  else (← c.forEach a).foldlM (fun acc b => (B.get C.visc b).bind fun pb => C.turn pa pb acc) (⟨0, 0, 0⟩, 0)

/-- The kernel: one work item per particle of the patch; each writes only its own elements, so that the order has no effect. -/
def Cfg.derivs (C : Cfg K) (B : Bufs K) (c : ObjCache) (n : Nat) : Option (List (V3 K × K)) := (List.range n).mapM (C.item B c)

/-! ### The fields of the ghosts -/

/-- Fields of a layer with the ghost layout (`hpart`, `uint`, `vxyz`, `omega`), Solver.cpp:1449-1452; the ghost layout of the other configurations (magnetic
field, dust, acceleration, sound speed) is not modelled. The layer of a patch and its field `omega` are kept together. -/
structure FData (K : Type) where
  h : PField K
  u : PField K
  v : PField (V3 K)
  omega : PField K

/-- One entry: the two passes of modify_interface_native, Solver.cpp:1482-1568 with BasicSPHGhosts.hpp:182-221. `speed` gives `offset_speed` for an
integer offset; the test `length > 0` is the test for zero. -/
def buildField (garbage : Nat → K) (garbageV : Nat → V3 K) (order : Nat → List Nat) (speed : V3 Int → V3 K) (data : List (Nat × FData K))
    (e : (Nat × Nat) × (Interf K × List Nat)) : Res ((Nat × Nat) × FData K) :=
  if e.2.2.length = 0 then .throws
  else match mfind data e.1.1 with
    | none => .throws
    | some src =>
      (src.h.appendSubset garbage order e.2.2 e.2.2.length ⟨1, []⟩).bind fun h =>
      (src.u.appendSubset garbage order e.2.2 e.2.2.length ⟨1, []⟩).bind fun u =>
      (src.v.appendSubset garbageV order e.2.2 e.2.2.length ⟨1, []⟩).bind fun v =>
      (src.omega.appendSubset garbage order e.2.2 e.2.2.length ⟨1, []⟩).bind fun om =>
      let sp := speed e.2.1.ioff
      .ok (e.1, ⟨h, u, if sp ≠ ⟨0, 0, 0⟩ then ⟨v.nvar, v.buf.map fun x => x.addv sp⟩ else v, om⟩)

/-- The interfaces, entry by entry. -/
def buildFields (garbage : Nat → K) (garbageV : Nat → V3 K) (order : Nat → Nat → List Nat) (speed : V3 Int → V3 K) (data : List (Nat × FData K)) :
    Nat → List ((Nat × Nat) × (Interf K × List Nat)) → Res (List ((Nat × Nat) × FData K))
  | _, [] => .ok []
  | i, e :: es => (buildField garbage garbageV (order i) speed data e).bind fun g =>
      (buildFields garbage garbageV order speed data (i + 1) es).bind fun gs => .ok (g :: gs)

/-- `insert_elements`, field by field. -/
def FData.insert (a b : FData K) : FData K := ⟨a.h.insert b.h, a.u.insert b.u, a.v.insert b.v, a.omega.insert b.omega⟩

/-- check_field_obj_cnt_match: all fields have as many objects as the first one. -/
def FData.checkMatch (p : FData K) : Res Unit :=
  p.h.objCnt.bind fun n => p.u.objCnt.bind fun a => p.v.objCnt.bind fun b => p.omega.objCnt.bind fun c =>
    if a = n ∧ b = n ∧ c = n then .ok () else .throws

/-- The appender, Solver.cpp:1647-1649 (`insert_elements` makes no check), for the interfaces of one patch, BasicSPHGhosts.hpp:466-470. -/
def appendFields (id : Nat) : List ((Nat × Nat) × FData K) → FData K → FData K
  | [], acc => acc
  | e :: es, acc => if e.1.2 = id then appendFields id es (acc.insert e.2) else appendFields id es acc

/-- merge_native with the initializer of Solver.cpp:1583-1646. -/
def mergeFields (recv : List ((Nat × Nat) × FData K)) : List (Nat × FData K) → Res (List (Nat × FData K))
  | [] => .ok []
  | p :: ps =>
    p.2.h.objCnt.bind fun n =>
    if p.1 = u64max ∨ n = 0 then mergeFields recv ps
    else
      let own : FData K := FData.insert ⟨⟨1, []⟩, ⟨1, []⟩, ⟨1, []⟩, ⟨1, []⟩⟩ p.2
      own.checkMatch.bind fun _ => (mergeFields recv ps).bind fun r => .ok ((p.1, appendFields p.1 recv own) :: r)

/-- The viscosity parameter has its own exchange, Solver.cpp:2336-2346: `make_new_from_subset`, PatchDataField.hpp:486-490. -/
def buildAlpha (garbage : Nat → K) (order : Nat → List Nat) (data : List (Nat × PField K)) (e : (Nat × Nat) × (Interf K × List Nat)) : Res ((Nat × Nat) × PField K) :=
  if e.2.2.length = 0 then .throws
  else match mfind data e.1.1 with
    | none => .throws
    | some src => (src.appendSubset garbage order e.2.2 e.2.2.length ⟨src.nvar, []⟩).bind fun f => .ok (e.1, f)

def buildAlphas (garbage : Nat → K) (order : Nat → Nat → List Nat) (data : List (Nat × PField K)) :
    Nat → List ((Nat × Nat) × (Interf K × List Nat)) → Res (List ((Nat × Nat) × PField K))
  | _, [] => .ok []
  | i, e :: es => (buildAlpha garbage (order i) data e).bind fun g => (buildAlphas garbage order data (i + 1) es).bind fun gs => .ok (g :: gs)

/-- The appender, Solver.cpp:2360-2362. -/
def appendAlphas (id : Nat) : List ((Nat × Nat) × PField K) → PField K → PField K
  | [], acc => acc
  | e :: es, acc => if e.1.2 = id then appendAlphas id es (acc.insert e.2) else appendAlphas id es acc

/-- merge_native with Solver.cpp:2352-2362 (the patch is empty when its field is). -/
def mergeAlphas (recv : List ((Nat × Nat) × PField K)) : List (Nat × PField K) → Res (List (Nat × PField K))
  | [] => .ok []
  | p :: ps => p.2.objCnt.bind fun n =>
    if p.1 = u64max ∨ n = 0 then mergeAlphas recv ps
    else (mergeAlphas recv ps).bind fun r => .ok ((p.1, appendAlphas p.1 recv p.2) :: r)

/-- The speed of the images, compute_shift_infos, BasicSPHGhosts.cpp:187-190 (`speed` is `shear_speed`). -/
def shearSpeed (c : ShearCfg K) (speed : K) (k : V3 Int) : V3 K :=
  ⟨((c.d k * c.dir.x : Int) : K) * speed, ((c.d k * c.dir.y : Int) : K) * speed, ((c.d k * c.dir.z : Int) : K) * speed⟩

/-- The buffers of the kernel for one patch: merged positions, merged fields, pressure and sound speed computed from smoothing length and energy of every merged particle
(modules/ComputeEos.cpp; adiabatic, isothermal and polytropic equations of state, those that do not depend on the position). -/
def bufsOf (eos : K → K → K × K) (pos : List (V3 K)) (f : FData K) (alpha : PField K) : Bufs K :=
  let pc := (f.h.buf.zip f.u.buf).map fun hu => eos hu.1 hu.2
  ⟨pos, f.h.buf, f.v.buf, f.u.buf, f.omega.buf, pc.map (·.1), pc.map (·.2), alpha.buf⟩

/-! ### Magneto-hydrodynamics -/

/-- `vsig_MHD`, /repo/src/shamphys/include/shamphys/mhd.hpp:26-56. -/
def vsigMHD (sqrt : K → K) (vab unit : V3 K) (cs : K) (b : V3 K) (rho mu0 alphaAv betaAv : K) : K :=
  let va := sqrt (dot b b / (mu0 * rho))
  alphaAv * sqrt (cs * cs + va * va) + betaAv * |dot vab unit|

/-- The acceleration of add_to_derivs_spmhd, mhd.hpp:241-327 with B_dot_grad_W, 34-61, and fdivB, 93-110: what it adds to `dv_dt` (`sum_mag_tension`, default
constructed, is taken to start from zero). -/
def Cfg.mhdAcc (C : Cfg K) (mu0 : K) (Ba Bb : V3 K) (a b : Part K) : V3 K :=
  let rhoA := rhoH C.pmass a.h C.hfact
  let rhoB := rhoH C.pmass b.h C.hfact
  let dr := vsub a.x b.x
  let rab := C.sqrt (dot dr dr)
  let na := smul (C.dW rab a.h) (smul (invSatPositive rab) dr)
  let nb := smul (C.dW rab b.h) (smul (invSatPositive rab) dr)
  let vab := vsub a.v b.v
  let unit := smul (invSatPositive rab) dr
  let vr := dot vab unit
  let sa := vsigMHD C.sqrt vab unit a.cs Ba rhoA mu0 1 1
  let sb := vsigMHD C.sqrt vab unit a.cs Bb rhoB mu0 1 1
  let fdiv := smul (1 / mu0) (smul (dot Ba na * invSatZero (rhoA * rhoA * a.omega) + dot Bb nb * invSatZero (rhoB * rhoB * b.omega)) (smul (-(1 / 2) * C.pmass) Ba))
  let gas := pressureSym C.pmass (rhoA * rhoA) (rhoB * rhoB) (a.p + qAv rhoA sa vr) (b.p + qAv rhoB sb vr) a.omega b.omega na nb
  let tension := smul (-1) (smul (-C.pmass) (vadd (smul (1 / mu0) (smul (dot Ba na * invSatZero (rhoA * rhoA * a.omega)) Ba))
    (smul (1 / mu0) (smul (dot Bb nb * invSatZero (rhoB * rhoB * b.omega)) Bb))))
  let mag := smul (1 / (2 * mu0)) (pressureSym C.pmass (rhoA * rhoA) (rhoB * rhoB) (dot Ba Ba) (dot Bb Bb) a.omega b.omega na nb)
  vadd (vadd (vadd gas mag) tension) fdiv

end
end Shamrock.Sph
